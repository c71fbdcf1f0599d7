import Verif.Hickle.Astropy
/-!
# C38 Metadata of astropy tables survives
-/
namespace Verif.Astro

/-- the keys of a dictionary are different -/
def Keys {ν : Type} (l : List (PyStr × ν)) : Prop := l.Pairwise fun e e' => e.1 ≠ e'.1

theorem get?_iff {ν : Type} {l : List (PyStr × ν)} (h : Keys l) (k : PyStr) (v : ν) : Assoc.get? l k = some v ↔ (k, v) ∈ l :=
  ⟨Assoc.get?_mem, fun hm => Assoc.get?_of_mem h hm⟩

theorem get?_filter (at' : At) (k k' : PyStr) (h : k ≠ k') : Assoc.get? (at'.filter fun q => q.1 ≠ k') k = Assoc.get? at' k := by
  induction at' with
  | nil => rfl
  | cons p l ih =>
    by_cases hp : p.1 = k'
    · rw [List.filter_cons_of_neg (by simp [hp]), ih, Assoc.get?, if_neg (by rw [hp]; exact fun h' => h h'.symm)]
    · rw [List.filter_cons_of_pos (by simp [hp])]
      simp only [Assoc.get?, ih]

theorem get?_items (at' : At) (k : PyStr) : Assoc.get? (items at') k = Assoc.get? at' k := by
  induction at' with
  | nil => rfl
  | cons p l ih =>
    simp only [items, Assoc.get?]
    by_cases hp : p.1 = k
    · rw [if_pos hp, if_pos hp]
    · rw [if_neg hp, if_neg hp, get?_filter _ _ _ (fun h => hp h.symm), ih]

theorem items_keys (at' : At) : Keys (items at') := by
  induction at' with
  | nil => exact .nil
  | cons p l ih =>
    refine .cons (fun q hq => ?_) (List.Pairwise.sublist List.filter_sublist ih)
    have := (List.mem_filter.1 hq).2
    simp at this
    exact fun h => this h.symm

theorem get?_perm {at' its : At} (h : its.Perm (items at')) (k : PyStr) : Assoc.get? its k = Assoc.get? at' k := by
  have hk : Keys its := (h.pairwise_iff (fun hne he => hne he.symm)).2 (items_keys at')
  rw [← get?_items at' k]
  apply Option.ext
  intro v
  rw [get?_iff hk, get?_iff (items_keys at'), h.mem_iff]

theorem get?_putAll {l : List (PyStr × MetaVal)} (hl : Keys l) (at' : At) (k : PyStr) :
    Assoc.get? (putAll at' l) k = match Assoc.get? l k with
      | some v => some (.val v)
      | none => Assoc.get? at' k := by
  induction hl generalizing at' with
  | nil => rfl
  | @cons p l h1 _ ih =>
    obtain ⟨k', v'⟩ := p
    simp only [putAll]
    rw [ih]
    simp only [Assoc.get?]
    by_cases hk : k' = k
    · subst hk
      rw [if_pos rfl]
      cases hg : Assoc.get? l k' with
      | none => exact Assoc.get?_put_self _ _ _
      | some v => exact absurd rfl (h1 (k', v) (Assoc.get?_mem hg))
    · rw [if_neg hk]
      cases Assoc.get? l k with
      | none => exact Assoc.get?_put_ne _ _ hk
      | some v => rfl

theorem get?_loaded (b : Bool) (its : At) (k : PyStr) :
    Assoc.get? (load b its).meta_ k = if k ∈ reserved then none else (Assoc.get? its k).map (readAttr b) := by
  simp only [load]
  induction its with
  | nil => simp
  | cons p l ih =>
    by_cases hp : p.1 ∈ reserved
    · rw [List.filter_cons_of_neg (by simpa using hp), ih]
      by_cases hk : k ∈ reserved
      · simp [hk]
      · rw [if_neg hk, if_neg hk, Assoc.get?, if_neg (fun h : p.1 = k => hk (h ▸ hp))]
    · rw [List.filter_cons_of_pos (by simpa using hp)]
      simp only [List.map_cons, Assoc.get?]
      by_cases hk : p.1 = k
      · rw [if_pos hk, if_pos hk, if_neg (hk ▸ hp)]; rfl
      · rw [if_neg hk, if_neg hk, ih]

/-! ### the property -/

/-- The column names and each entry of the metadata with its value come back. -/
structure Kept (t : Table) (l : Loaded) : Prop where
  names : l.names = some (.names t.colnames)
  entries : ∀ e ∈ t.meta_, Assoc.get? l.meta_ e.1 = some (.val e.2)

/-- The table comes back: its column names, its metadata, and no other metadata. -/
structure Same (t : Table) (l : Loaded) : Prop extends Kept t l where
  only : ∀ e ∈ l.meta_, e.1 ∈ t.meta_.map Prod.fst

/-- keys under which nothing else is stored at the node: neither by hickle for the table nor handed down by the object that contains it -/
def Free (handed : List (PyStr × MetaVal)) (k : PyStr) : Prop := k ∉ reserved ∧ k ∉ handed.map Prod.fst

/-- **C38, what is loaded, for every table.**  For every table that dump accepts, wherever in an object graph it is and in
whatever order the attributes are listed. -/
theorem C38_exact {t : Table} (hm : Keys t.meta_) {handed : List (PyStr × MetaVal)} (hh : Keys handed) {at' : At} (hd : dump t handed = .ok at')
    (b : Bool) {its : At} (hi : its.Perm (items at')) (k : PyStr) :
    Assoc.get? (load b its).meta_ k =
      if k ∈ reserved then none
      else ((Assoc.get? handed k).or (Assoc.get? t.meta_ k)).map fun v => .val (readVal b v) := by
  rw [get?_loaded, get?_perm hi]
  unfold dump create at hd
  split at hd
  · next h => split at h <;> simp at hd h
  · next at1 h =>
    split at h
    · simp at h hd
      subst h; subst hd
      by_cases hk : k ∈ reserved
      · simp [hk]
      · have h1 : tx "type" ≠ k := by rintro rfl; exact hk (by decide)
        have h2 : tx "colnames" ≠ k := by rintro rfl; exact hk (by decide)
        rw [if_neg hk, if_neg hk, get?_putAll hh]
        cases Assoc.get? handed k with
        | some v => rfl
        | none =>
          simp only [Option.none_or]
          rw [Assoc.get?_put_ne _ _ h1, get?_putAll hm]
          cases Assoc.get? t.meta_ k with
          | some v => rfl
          | none => simp only []; rw [Assoc.get?_put_ne _ _ h2]; rfl
    · simp at h

/-- **C38, tables inside of other objects.**  If no key of the metadata is `type`, `base_type` or `colnames`, or one the containing object hands down
(`item_index` for a list), and no value is a byte string that h5py turns into text, names and metadata come back, whatever the
columns, the metadata and the order of the attributes.
Missing: that there is no other metadata afterwards, which is false (`C38_violated_inside`). -/
theorem C38_inside_partial {t : Table} (hm : Keys t.meta_) {handed : List (PyStr × MetaVal)} (hh : Keys handed) {at' : At} (hd : dump t handed = .ok at')
    (hc : tx "colnames" ∉ handed.map Prod.fst)
    (hfree : ∀ e ∈ t.meta_, Free handed e.1) (b : Bool) (hb : ∀ e ∈ t.meta_, readVal b e.2 = e.2) {its : At} (hi : its.Perm (items at')) :
    Kept t (load b its) := by
  refine ⟨?_, fun e he => ?_⟩
  · simp only [load]
    rw [get?_perm hi]
    unfold dump create at hd
    have hx : ∀ {l : List (PyStr × MetaVal)} {k : PyStr}, k ∉ l.map Prod.fst → Assoc.get? l k = none := by
      intro l k hk
      cases hg : Assoc.get? l k with
      | none => rfl
      | some v => exact absurd (List.mem_map.2 ⟨_, Assoc.get?_mem hg, rfl⟩) hk
    split at hd
    · next h => split at h <;> simp at hd h
    · next at1 h =>
      split at h
      · simp at h hd
        subst h; subst hd
        rw [get?_putAll hh, hx hc]
        simp only []
        rw [Assoc.get?_put_ne _ _ (by decide), get?_putAll hm, hx]
        · simp only []; rw [Assoc.get?_put_self]; rfl
        · intro h
          obtain ⟨e, he, h1⟩ := List.mem_map.1 h
          exact (hfree e he).1 (by rw [h1]; decide)
      · simp at h
  · rw [C38_exact hm hh hd b hi, if_neg (hfree e he).1]
    have h1 : Assoc.get? handed e.1 = none := by
      cases hg : Assoc.get? handed e.1 with
      | none => rfl
      | some v => exact absurd (List.mem_map.2 ⟨_, Assoc.get?_mem hg, rfl⟩) (hfree e he).2
    rw [h1, Assoc.get?_of_mem hm he]
    simp [hb e he]

/-- **C38, the part that holds.**  A table that is dumped by itself comes back, with its metadata and no other, if no key of the metadata is `type`, `base_type` or
`colnames`, and no value is a byte string that h5py turns into text. -/
theorem C38_partial {t : Table} (hm : Keys t.meta_) {at' : At} (hd : dump t [] = .ok at') (hfree : ∀ e ∈ t.meta_, e.1 ∉ reserved) (b : Bool)
    (hb : ∀ e ∈ t.meta_, readVal b e.2 = e.2) {its : At} (hi : its.Perm (items at')) : Same t (load b its) := by
  refine ⟨C38_inside_partial hm List.Pairwise.nil hd (by simp) (fun e he => ⟨hfree e he, by simp⟩) b hb hi, fun e he => ?_⟩
  cases hg : Assoc.get? (load b its).meta_ e.1 with
  | none => exact (Assoc.get?_none_of_mem hg he).elim
  | some v =>
    rw [C38_exact hm List.Pairwise.nil hd b hi] at hg
    split at hg
    · simp at hg
    · cases ht : Assoc.get? t.meta_ e.1 with
      | none => rw [ht] at hg; simp [Assoc.get?] at hg
      | some w => exact List.mem_map.2 ⟨_, Assoc.get?_mem ht, rfl⟩

/-- **C38 is violated** by every table inside of another object: each attribute that this object hands down (`item_index` by a list, `key_idx` and
`key_base_type` by a dict) is an entry of the metadata afterwards. -/
theorem C38_violated_inside {t : Table} (hm : Keys t.meta_) {handed : List (PyStr × MetaVal)} (hh : Keys handed) {at' : At} (hd : dump t handed = .ok at')
    (b : Bool) {its : At} (hi : its.Perm (items at')) {k : PyStr} {v : MetaVal} (hk : (k, v) ∈ handed) (hr : k ∉ reserved) (ht : k ∉ t.meta_.map Prod.fst) :
    Assoc.get? (load b its).meta_ k = some (.val (readVal b v)) ∧ ¬ Same t (load b its) := by
  have h1 : Assoc.get? (load b its).meta_ k = some (.val (readVal b v)) := by
    rw [C38_exact hm hh hd b hi, if_neg hr, (get?_iff hh k v).2 hk]
    rfl
  exact ⟨h1, fun h => ht (h.only _ (Assoc.get?_mem h1))⟩

/-- **C38, which tables are accepted.**  Those whose column names are ASCII; for all others dump raises `UnicodeEncodeError`
and never writes other names. -/
theorem C38_accepted (t : Table) (handed : List (PyStr × MetaVal)) :
    (∃ at', dump t handed = .ok at') ↔ ∀ n ∈ t.colnames, ∀ c ∈ n, c < 128 := by
  have h : t.colnames.all ascii = true ↔ ∀ n ∈ t.colnames, ∀ c ∈ n, c < 128 := by simp [ascii]
  unfold dump create
  rw [← h]
  split
  · next h' => split at h' <;> simp_all
  · next h' => split at h' <;> simp_all

theorem C38_refused {t : Table} {handed : List (PyStr × MetaVal)} {e : PyErr} (h : dump t handed = .error e) :
    e = .unicodeEncodeError ∧ ∃ n ∈ t.colnames, ∃ c ∈ n, 128 ≤ c := by
  have hn : ¬ ∃ at', dump t handed = .ok at' := by rw [h]; simp
  rw [C38_accepted] at hn
  refine ⟨?_, by simpa using hn⟩
  unfold dump create at h
  split at h
  · next h' => split at h' <;> simp_all
  · simp at h

/-- `å` is refused -/
example : dump ⟨[tx "ra", [229]], [], 1⟩ [] = .error .unicodeEncodeError := rfl

/-! ### violations -/

def sample : Table := ⟨[tx "ra", tx "dec"], [(tx "author", .text (tx "x")), (tx "epoch", .other 7)], 3⟩

example : ∃ at', dump sample [] = .ok at' ∧ Same sample (load true (items at')) :=
  ⟨_, rfl, C38_partial (by unfold Keys; decide) rfl (by decide) true (by decide) (List.Perm.refl _)⟩

/-- the same table in a list -/
example : ∃ at', dump sample [(tx "item_index", .other 0)] = .ok at' ∧ Kept sample (load true (items at')) ∧
    Assoc.get? (load true (items at')).meta_ (tx "item_index") = some (.val (.other 0)) :=
  ⟨_, rfl, C38_inside_partial (by unfold Keys; decide) (by unfold Keys; decide) rfl (by decide) (by unfold Free; decide) true (by decide) (List.Perm.refl _),
    (C38_violated_inside (t := sample) (handed := [(tx "item_index", .other 0)]) (by unfold Keys; decide) (by unfold Keys; decide) rfl true (List.Perm.refl _) (k := tx "item_index") (v := .other 0) (by decide) (by decide) (by decide)).1⟩

def withKey (k : String) (v : MetaVal) : Table := ⟨[tx "ra"], [(tx k, v)], 3⟩

/-- what a table with one metadata entry is loaded as -/
def loadKey (k : String) (v : MetaVal) (handed : List (PyStr × MetaVal)) : Option Loaded :=
  (dump (withKey k v) handed).toOption.map fun at' => load true (items at')

/-- A metadata entry called `type` is lost: the class reference of the node replaces it. -/
theorem C38_violated_type : loadKey "type" (.text (tx "survey")) [] = some ⟨some (.names [tx "ra"]), []⟩ := by decide

/-- So is one called `base_type`. -/
theorem C38_violated_base_type : loadKey "base_type" (.other 5) [] = some ⟨some (.names [tx "ra"]), []⟩ := by decide

/-- An entry called `colnames` replaces the names of the columns and is lost itself. -/
theorem C38_violated_colnames : loadKey "colnames" (.text (tx "x")) [] = some ⟨some (.val (.text (tx "x"))), []⟩ := by decide

/-- In a list, an entry called `item_index` gets the position of the table as its value. -/
theorem C38_violated_handed :
    loadKey "item_index" (.other 41) [(tx "item_index", .other 0)] = some ⟨some (.names [tx "ra"]), [(tx "item_index", .val (.other 0))]⟩ := by decide

/-- A byte string comes back as text. -/
theorem C38_violated_bytes :
    loadKey "key" (.bytes [97]) [] = some ⟨some (.names [tx "ra"]), [(tx "key", .val (.text (tx "a")))]⟩ := by decide

/-- Each of them contradicts `Kept`. -/
theorem C38_violated : ∃ (t : Table) (at' : At), Keys t.meta_ ∧ dump t [] = .ok at' ∧ ¬ Kept t (load true (items at')) := by
  refine ⟨withKey "type" (.other 1), _, by unfold Keys; decide, rfl, fun h => ?_⟩
  have := h.entries (tx "type", .other 1) (by decide)
  revert this
  decide

end Verif.Astro
