import Verif.Hickle.DumpSpec
import Verif.Hickle.Spec
/-!
# Objects made for a dump

`Nested`: an object of the heap is a nested sequence of given shape and elements.  `TempIn`: an object was made
for the dump of an object with the given value.  `nest_spec`: placing a block of new objects
gives both.
-/
namespace Verif

/-- an element of a nested sequence -/
def LeafAt (base : Nat) (H : Heap) : Leaf → Addr → Prop
  | .addr a, p => p = a
  | .obj o, p => base ≤ p ∧ H[p]? = some o

/-- object `p` is a nested sequence of class `c` and shape `sh` with elements `ls`; what is new in it lies behind
`base` -/
def Nested (base : Nat) (H : Heap) (c : Cls) : List Nat → List Leaf → Addr → Prop
  | [], ls, p => ∃ l, ls = [l] ∧ LeafAt base H l p
  | n :: sh, ls, p => base ≤ p ∧ ∃ rows lss, H[p]? = some ⟨c, .seq rows⟩ ∧ rows.length = n ∧ ls = lss.flatten ∧
      All2 (fun r l => Nested base H c sh l r) rows lss

theorem All2.partner {α β : Type} {r : α → β → Prop} {xs : List α} {ys : List β} (h : All2 r xs ys) {x : α} (hx : x ∈ xs) : ∃ y ∈ ys, r x y := by
  induction h with
  | nil => simp at hx
  | cons h1 _ ih =>
    rcases List.mem_cons.1 hx with rfl | hx
    · exact ⟨_, by simp, h1⟩
    · obtain ⟨y, k1, k2⟩ := ih hx
      exact ⟨y, by simp [k1], k2⟩

theorem All2.imp {α β : Type} {r r' : α → β → Prop} {xs : List α} {ys : List β} (h : All2 r xs ys) (hi : ∀ x y, x ∈ xs → y ∈ ys → r x y → r' x y) :
    All2 r' xs ys := by
  induction h with
  | nil => exact .nil
  | cons h1 _ ih => exact .cons (hi _ _ (by simp) (by simp) h1) (ih fun x y hx hy => hi x y (by simp [hx]) (by simp [hy]))

theorem Nested.mono {base : Nat} {H H' : Heap} {c : Cls} (hp : H <+: H') : ∀ {sh : List Nat} {ls : List Leaf} {p : Addr},
    Nested base H c sh ls p → Nested base H' c sh ls p := by
  have get : ∀ {i : Addr} {x : Obj}, H[i]? = some x → H'[i]? = some x := by
    intro i x hx
    obtain ⟨t, rfl⟩ := hp
    rw [List.getElem?_append_left (lt_of_getElem? hx)]; exact hx
  intro sh
  induction sh with
  | nil =>
    rintro ls p ⟨l, rfl, h⟩
    refine ⟨l, rfl, ?_⟩
    cases l with
    | addr a => exact h
    | obj o => exact ⟨h.1, get h.2⟩
  | cons n sh ih =>
    rintro ls p ⟨h0, rows, lss, h1, h2, h3, h4⟩
    exact ⟨h0, rows, lss, get h1, h2, h3, h4.imp fun _ _ _ _ h => ih h⟩

/-- values of the objects made for a dump -/
def Val.isTemp : Val → Bool
  | .seq _ | .str _ | .arr .. | .np _ | .int _ => true
  | _ => false

/-- new objects an object with value `v` is dumped with -/
inductive LeafOf : Val → Obj → Prop
  | str {w sh ss s} : s ∈ ss → LeafOf (.sarr w sh ss) ⟨.str, .str s⟩
  | data {d sh data m d' data'} : LeafOf (.masked d sh data m) ⟨.ndarray, .arr d' sh data'⟩
  | nomask {d sh data m} : LeafOf (.masked d sh data m) ⟨.npBool, .np (.b false)⟩
  | dim {d i p sh} {n : Nat} : n ∈ sh → LeafOf (.sparse d i p sh) ⟨.int, .int n⟩

/-- a row of an array of objects -/
def RowOf (v : Val) (rows : List Addr) : Prop :=
  ∃ shape items n i, v = .oarr shape items ∧ shape.getLast? = some n ∧ rows = (items.drop (i * n)).take n ∧ i * n + n ≤ items.length

/-- object `p` was made for the dump of an object with value `v` -/
inductive TempIn (H : Heap) (base : Nat) (v : Val) : Addr → Prop
  | leaf {p o} : base ≤ p → H[p]? = some o → LeafOf v o → TempIn H base v p
  | row {p c rows} : base ≤ p → H[p]? = some ⟨c, .seq rows⟩ → (c = .list ∨ (c = .tuple ∧ rows ≠ [])) → (∀ r ∈ rows, r < p) →
      (∀ r ∈ rows, TempIn H base v r) →
      ((∀ r ∈ rows, ∃ o, H[r]? = some o ∧ LeafOf v o) ∨ ∀ r ∈ rows, ∃ c l, H[r]? = some ⟨c, .seq l⟩) → TempIn H base v p
  | elems {p rows} : base ≤ p → H[p]? = some ⟨.list, .seq rows⟩ → RowOf v rows → TempIn H base v p

theorem TempIn.mono {H H' : Heap} {base : Nat} {v : Val} {p : Addr} (hp : H <+: H') (h : TempIn H base v p) : TempIn H' base v p := by
  have get : ∀ {i : Addr} {x : Obj}, H[i]? = some x → H'[i]? = some x := by
    intro i x hx
    obtain ⟨t, rfl⟩ := hp
    rw [List.getElem?_append_left (lt_of_getElem? hx)]; exact hx
  induction h with
  | leaf h1 h2 h3 => exact .leaf h1 (get h2) h3
  | row h1 h2 h3 h4 _ h6 ih =>
    refine .row h1 (get h2) h3 h4 ih ?_
    rcases h6 with h6 | h6
    · exact .inl fun r hr => by obtain ⟨o, e1, e2⟩ := h6 r hr; exact ⟨o, get e1, e2⟩
    · exact .inr fun r hr => by obtain ⟨c, l, e⟩ := h6 r hr; exact ⟨c, l, get e⟩
  | elems h1 h2 h3 => exact .elems h1 (get h2) h3

theorem TempIn.base_le {H : Heap} {base : Nat} {v : Val} {p : Addr} (h : TempIn H base v p) : base ≤ p := by
  cases h <;> assumption

/-- the elements of a nested sequence made for the dump of `v` -/
inductive Leaves (v : Val) : List Nat → List Leaf → Prop
  | objs {sh : List Nat} {os : List Obj} : (∀ shape items, v ≠ .oarr shape items) → (∀ o ∈ os, LeafOf v o) → os.length = shSize sh → Leaves v sh (os.map .obj)
  | addrs {shape : List Nat} {items : List Addr} {n off : Nat} {sh : List Nat} : v = .oarr shape items → shape.getLast? = some n → sh.getLast? = some n → n ∣ off →
      off + shSize sh ≤ items.length → Leaves v sh (((items.drop off).take (shSize sh)).map .addr)

theorem Leaves.length {v : Val} {sh : List Nat} {ls : List Leaf} (h : Leaves v sh ls) : ls.length = shSize sh := by
  cases h with
  | objs _ h1 h2 => simpa using h2
  | addrs h1 h2 h3 h4 h5 => simp; omega

theorem getLast_dvd_shSize : ∀ {sh : List Nat} {n : Nat}, sh.getLast? = some n → n ∣ shSize sh := by
  intro sh
  induction sh with
  | nil => simp
  | cons m sh ih =>
    intro n h
    cases sh with
    | nil => simp at h; subst h; simp [shSize]
    | cons k sh => rw [List.getLast?_cons_cons] at h; exact Nat.dvd_trans (ih h) (Nat.dvd_mul_left _ _)

theorem mul_le_of_lt {i n k : Nat} (h : i < n) : i * k + k ≤ n * k := by
  rw [← Nat.succ_mul]; exact Nat.mul_le_mul_right _ h

theorem Leaves.row {v : Val} {n : Nat} {sh : List Nat} {ls : List Leaf} (h : Leaves v (n :: sh) ls) {i : Nat} (hi : i < n)
    (hs : sh ≠ [] ∨ ∀ shape items, v ≠ .oarr shape items) : Leaves v sh ((ls.drop (i * shSize sh)).take (shSize sh)) := by
  have hle := mul_le_of_lt (k := shSize sh) hi
  cases h with
  | objs h0 h1 h2 =>
    rw [← List.map_drop, ← List.map_take]
    refine .objs h0 (fun o ho => h1 o (List.mem_of_mem_drop (List.mem_of_mem_take ho))) ?_
    simp only [shSize] at h2
    rw [List.length_take, List.length_drop]; omega
  | @addrs shape items m off _ h1 h2 h3 h4 h5 =>
    simp only [shSize] at h5
    have hsh : sh ≠ [] := by
      rcases hs with hs | hs
      · exact hs
      · exact absurd h1 (hs _ _)
    rw [← List.map_drop, ← List.map_take, List.drop_take, List.drop_drop, List.take_take]
    have h3' : sh.getLast? = some m := by
      cases sh with
      | nil => exact absurd rfl hsh
      | cons k sh => rw [List.getLast?_cons_cons] at h3; exact h3
    have : min (shSize sh) (shSize (n :: sh) - i * shSize sh) = shSize sh := by simp only [shSize]; omega
    rw [this]
    exact .addrs h1 h2 h3' (Nat.dvd_add h4 (Nat.dvd_trans (getLast_dvd_shSize h3') (Nat.dvd_mul_left _ _))) (by omega)

/-- the objects of a block lie in the heap -/
def Placed (H : Heap) (st : Nat) (blk : List Obj) : Prop := ∀ (i : Nat) (o : Obj), blk[i]? = some o → H[st + i]? = some o

theorem Placed.left {H : Heap} {st : Nat} {a b : List Obj} (h : Placed H st (a ++ b)) : Placed H st a :=
  fun i o hi => h i o (by rw [List.getElem?_append_left (lt_of_getElem? hi)]; exact hi)

theorem Placed.right {H : Heap} {st : Nat} {a b : List Obj} (h : Placed H st (a ++ b)) : Placed H (st + a.length) b :=
  fun i o hi => by
    have := h (a.length + i) o (by rw [List.getElem?_append_right (by omega)]; simpa using hi)
    rwa [← Nat.add_assoc] at this

theorem nestRows_addrs {c : Cls} {as : List Addr} {st : Nat} : nestRows (nestBlock c []) 1 as.length (as.map .addr) st = ([], as) := by
  induction as with
  | nil => rfl
  | cons a as ih =>
    simp only [List.length_cons, List.map_cons, nestRows, List.take_succ_cons, List.take_zero, List.drop_succ_cons, List.drop_zero, nestBlock,
      List.length_nil, Nat.add_zero, ih, List.nil_append]

/-- what a placed block is -/
structure BlockOk (H : Heap) (base : Nat) (v : Val) (c : Cls) (sh : List Nat) (ls : List Leaf) (st : Nat) (blk : List Obj) (root : Addr) : Prop where
  nested : Nested base H c sh ls root
  all : ∀ i, i < blk.length → TempIn H base v (st + i)
  lo : st ≤ root
  hi : root < st + blk.length

theorem nestRows_spec {H : Heap} {base : Nat} {v : Val} {c : Cls} {sh : List Nat}
    (ih : ∀ ls st, Leaves v sh ls → base ≤ st → Placed H st (nestBlock c sh ls st).1 →
      BlockOk H base v c sh ls st (nestBlock c sh ls st).1 (nestBlock c sh ls st).2) (k : Nat) :
    ∀ ls st, ls.length = k * shSize sh → (∀ i, i < k → Leaves v sh ((ls.drop (i * shSize sh)).take (shSize sh))) → base ≤ st →
      Placed H st (nestRows (nestBlock c sh) (shSize sh) k ls st).1 →
      ∃ lss, ls = lss.flatten ∧ All2 (fun r l => Nested base H c sh l r) (nestRows (nestBlock c sh) (shSize sh) k ls st).2 lss ∧
        (nestRows (nestBlock c sh) (shSize sh) k ls st).2.length = k ∧
        (∀ r ∈ (nestRows (nestBlock c sh) (shSize sh) k ls st).2, r < st + (nestRows (nestBlock c sh) (shSize sh) k ls st).1.length ∧ TempIn H base v r) ∧
        ∀ i, i < (nestRows (nestBlock c sh) (shSize sh) k ls st).1.length → TempIn H base v (st + i) := by
  induction k with
  | zero =>
    intro ls st hl _ _ _
    simp at hl; subst hl
    exact ⟨[], rfl, .nil, rfl, by simp [nestRows], by simp [nestRows]⟩
  | succ k ihk =>
    intro ls st hl hL hst hp
    simp only [nestRows] at hp ⊢
    have h0 := hL 0 (by omega)
    simp only [Nat.zero_mul, List.drop_zero] at h0
    have hb := ih (ls.take (shSize sh)) st h0 hst hp.left
    rcases hx : nestBlock c sh (ls.take (shSize sh)) st with ⟨blk, root⟩
    rw [hx] at hb hp
    simp only at hb hp ⊢
    have hlen : (ls.drop (shSize sh)).length = k * shSize sh := by
      rw [List.length_drop, hl, Nat.succ_mul]; omega
    have hL' : ∀ i, i < k → Leaves v sh (((ls.drop (shSize sh)).drop (i * shSize sh)).take (shSize sh)) := by
      intro i hi
      have := hL (i + 1) (by omega)
      rw [Nat.succ_mul] at this
      rw [List.drop_drop, Nat.add_comm]; exact this
    obtain ⟨lss, e1, e2, e3, e4, e5⟩ := ihk (ls.drop (shSize sh)) (st + blk.length) hlen hL' (by omega) hp.right
    rcases hy : nestRows (nestBlock c sh) (shSize sh) k (ls.drop (shSize sh)) (st + blk.length) with ⟨blk2, rows⟩
    rw [hy] at e2 e3 e4 e5
    simp only at e2 e3 e4 e5 ⊢
    have hall : ∀ i, i < (blk ++ blk2).length → TempIn H base v (st + i) := by
      intro i hi
      rcases Nat.lt_or_ge i blk.length with h | h
      · exact hb.all i h
      · have := e5 (i - blk.length) (by rw [List.length_append] at hi; omega)
        rwa [show st + blk.length + (i - blk.length) = st + i by omega] at this
    refine ⟨ls.take (shSize sh) :: lss, ?_, .cons hb.nested e2, by simp [e3], ?_, hall⟩
    · rw [List.flatten_cons, ← e1, List.take_append_drop]
    · intro r hr
      rcases List.mem_cons.1 hr with rfl | hr
      · have h1 := hb.lo
        have h2 := hb.hi
        refine ⟨by rw [List.length_append]; omega, ?_⟩
        have := hall (r - st) (by rw [List.length_append]; omega)
        rwa [show st + (r - st) = r by omega] at this
      · have := e4 r hr
        exact ⟨by rw [List.length_append]; omega, this.2⟩

theorem nest_spec {H : Heap} {base : Nat} {v : Val} {c : Cls} (sh : List Nat) : ∀ ls st, Leaves v sh ls →
    (c = .list ∨ (c = .tuple ∧ (∀ n ∈ sh, n ≠ 0) ∧ ∀ shape items, v ≠ .oarr shape items)) → base ≤ st → Placed H st (nestBlock c sh ls st).1 →
    BlockOk H base v c sh ls st (nestBlock c sh ls st).1 (nestBlock c sh ls st).2 := by
  induction sh with
  | nil =>
    intro ls st hL hc hst hp
    cases hL with
    | @objs _ os _ h1 h2 =>
      match os, h2 with
      | [o], _ =>
        simp only [List.map_cons, List.map_nil, nestBlock] at hp ⊢
        have := hp 0 o rfl
        refine ⟨⟨_, rfl, hst, this⟩, ?_, Nat.le_refl _, by simp⟩
        intro i hi
        simp at hi; subst hi
        exact .leaf hst this (h1 o (by simp))
      | [], h2 => simp [shSize] at h2
      | _ :: _ :: _, h2 => simp [shSize] at h2
    | addrs h1 h2 h3 => simp at h3
  | cons n sh ih =>
    intro ls st hL hc hst hp
    simp only [nestBlock] at hp ⊢
    have hlen := hL.length
    simp only [shSize] at hlen
    -- the object itself
    have hroot : ∀ {rows blk}, Placed H st (blk ++ [⟨c, .seq rows⟩]) → H[st + blk.length]? = some ⟨c, .seq rows⟩ := by
      intro rows blk h
      exact h blk.length _ (by simp)
    have hcls : ∀ {rows : List Addr}, rows.length = n → c = .list ∨ (c = .tuple ∧ rows ≠ []) := by
      intro rows hr
      rcases hc with hc | ⟨hc, h, _⟩
      · exact .inl hc
      · refine .inr ⟨hc, ?_⟩
        rintro rfl
        exact h n (by simp) (by simpa using hr.symm)
    by_cases hs : sh ≠ [] ∨ ∀ shape items, v ≠ .oarr shape items
    · have hsub : ∀ i, i < n → Leaves v sh ((ls.drop (i * shSize sh)).take (shSize sh)) := fun i hi => hL.row hi hs
      obtain ⟨lss, e1, e2, e3, e4, e5⟩ := nestRows_spec (H := H) (base := base) (v := v) (c := c) (sh := sh) (fun ls' st' hL' hst' hp' => by
          refine ih ls' st' hL' ?_ hst' hp'
          rcases hc with hc | ⟨hc, hn, hv⟩
          · exact .inl hc
          · exact .inr ⟨hc, fun k hk => hn k (by simp [hk]), hv⟩) n ls st hlen hsub hst hp.left
      rcases hy : nestRows (nestBlock c sh) (shSize sh) n ls st with ⟨blk, rows⟩
      rw [hy] at e2 e3 e4 e5 hp
      simp only at e2 e3 e4 e5 hp ⊢
      have hr := hroot hp
      have hkind : (∀ r ∈ rows, ∃ o, H[r]? = some o ∧ LeafOf v o) ∨ ∀ r ∈ rows, ∃ c l, H[r]? = some ⟨c, .seq l⟩ := by
        cases sh with
        | cons m sh =>
          refine .inr fun r hr' => ?_
          obtain ⟨l, _, hn⟩ := e2.partner hr'
          obtain ⟨_, rows', _, h, _⟩ := hn
          exact ⟨c, rows', h⟩
        | nil =>
          refine .inl fun r hr' => ?_
          have hv : ∀ shape items, v ≠ .oarr shape items := hs.resolve_left (by simp)
          obtain ⟨l, hl, x, hx, hn⟩ := e2.partner hr'
          have hm : x ∈ ls := by rw [e1]; exact List.mem_flatten.2 ⟨l, hl, by rw [hx]; simp⟩
          cases hL with
          | objs _ h1 _ =>
            obtain ⟨o, ho, rfl⟩ := List.mem_map.1 hm
            exact ⟨o, hn.2, h1 o ho⟩
          | addrs h1 => exact absurd h1 (hv _ _)
      have ht : TempIn H base v (st + blk.length) := .row (by omega) hr (hcls e3) (fun r h => (e4 r h).1) (fun r h => (e4 r h).2) hkind
      refine ⟨⟨by omega, rows, lss, hr, e3, e1, e2⟩, ?_, by omega, by simp⟩
      intro i hi
      rw [List.length_append, List.length_singleton] at hi
      rcases Nat.lt_or_ge i blk.length with h | h
      · exact e5 i h
      · rw [show i = blk.length by omega]; exact ht
    · -- a row of the array itself
      have hsh : sh = [] := Decidable.byContradiction fun h => hs (.inl h)
      subst hsh
      have hcl : c = .list := by
        rcases hc with hc | ⟨_, _, hv⟩
        · exact hc
        · exact absurd (.inr hv) hs
      cases hL with
      | objs h0 _ _ => exact absurd (.inr h0) hs
      | @addrs shape items m off _ h1 h2 h3 h4 h5 =>
        simp only [List.getLast?_singleton, Option.some.injEq] at h3
        subst h3
        simp only [shSize, Nat.mul_one] at h5 hp ⊢
        have hl : ((items.drop off).take n).length = n := by rw [List.length_take, List.length_drop]; omega
        have hnr := nestRows_addrs (c := c) (as := (items.drop off).take n) (st := st)
        rw [hl] at hnr
        rw [hnr] at hp ⊢
        obtain ⟨i, rfl⟩ := h4
        have hr := hroot hp
        subst hcl
        have ht : TempIn H base v (st + 0) := .elems (by omega) hr ⟨shape, items, n, i, h1, h2, by rw [Nat.mul_comm], by rw [Nat.mul_comm]; exact h5⟩
        refine ⟨⟨by simpa using hst, _, ((items.drop (n * i)).take n).map (fun a => [Leaf.addr a]), hr, hl, ?_, ?_⟩, ?_, by simp, by simp⟩
        · generalize (items.drop (n * i)).take n = as
          induction as with
          | nil => rfl
          | cons a as ih => simp [ih]
        · generalize (items.drop (n * i)).take n = as
          induction as with
          | nil => exact .nil
          | cons a as ih => exact .cons ⟨_, rfl, rfl⟩ ih
        · intro i hi
          simp at hi; subst hi
          exact ht

/-- a nested sequence is made for the dump of an object with value `v` -/
def NestOf (v : Val) (c : Cls) (sh : List Nat) (ls : List Leaf) : Prop :=
  Leaves v sh ls ∧ (c = .list ∨ (c = .tuple ∧ (∀ n ∈ sh, n ≠ 0) ∧ ∀ shape items, v ≠ .oarr shape items))

theorem nestSubs_mem {sh : List Nat} {sb : Sub} {k : Nat} : ∀ {i : Nat} {ls : List Leaf}, Except.ok sb ∈ nestSubs sh i k ls →
    ∃ j, j < k ∧ sb = ⟨dataName (i + j), .nest .list sh ((ls.drop (j * shSize sh)).take (shSize sh)), [("item_index", .int (i + j : Nat))]⟩ := by
  induction k with
  | zero => intro i ls h; simp [nestSubs] at h
  | succ k ih =>
    intro i ls h
    simp only [nestSubs, List.mem_cons, Except.ok.injEq] at h
    rcases h with h | h
    · exact ⟨0, by omega, by simpa using h⟩
    · obtain ⟨j, hj, e⟩ := ih h
      refine ⟨j + 1, by omega, ?_⟩
      rw [e, List.drop_drop, Nat.succ_mul, Nat.add_comm (shSize sh), show i + 1 + j = i + (j + 1) by omega]

theorem RowsOf.nest {o : Obj} {n : Nat} {sh : List Nat} {ls : List Leaf} {dt : AttrVal} (h : RowsOf o n sh ls dt) (hl : ls.length = n * shSize sh)
    {j : Nat} (hj : j < n) : NestOf o.val .list sh ((ls.drop (j * shSize sh)).take (shSize sh)) := by
  refine ⟨?_, .inl rfl⟩
  cases h with
  | @str w n sh data h1 =>
    refine Leaves.row (n := n) ?_ hj (.inr (by rw [h1]; simp))
    rw [show (data.map fun s => Leaf.obj ⟨.str, .str s⟩) = (data.map fun s => (⟨.str, .str s⟩ : Obj)).map Leaf.obj by simp]
    refine .objs (by rw [h1]; simp) ?_ (by simpa [shSize] using hl)
    intro o ho
    simp at ho
    obtain ⟨s, hs, rfl⟩ := ho
    rw [h1]; exact .str hs
  | @obj n m sh items h1 =>
    refine Leaves.row (n := n) ?_ hj (.inl (by simp))
    obtain ⟨k, hk⟩ : ∃ k, (m :: sh).getLast? = some k := ⟨_, List.getLast?_eq_some_getLast (by simp)⟩
    have := Leaves.addrs (v := o.val) (off := 0) (sh := n :: m :: sh) h1 (by rw [List.getLast?_cons_cons]; exact hk) (by rw [List.getLast?_cons_cons]; exact hk)
      (Nat.dvd_zero _) (by simp only [List.length_map] at hl; simp only [shSize] at hl ⊢; omega)
    rw [List.drop_zero, List.take_of_length_le (by simp only [List.length_map] at hl; simp only [shSize] at hl ⊢; omega)] at this
    exact this

theorem nest_obj {v : Val} {o : Obj} (hv : ∀ shape items, v ≠ .oarr shape items) (h : LeafOf v o) : NestOf v .list [] [.obj o] :=
  ⟨.objs (sh := []) (os := [o]) hv (by simpa using h) rfl, .inl rfl⟩

/-- objects behind `base` were made for the dump of an object: a key/value tuple of a dict, or part of the content of an array -/
def TempOk (H : Heap) (base : Nat) (p : Addr) (o : Obj) : Prop :=
  (∃ k v, o = ⟨.tuple, .seq [k, v]⟩ ∧ ∃ (a : Addr) (cl : Cls) (es : List (Addr × Addr)), H[a]? = some ⟨cl, .dict es⟩ ∧ (k, v) ∈ es) ∨
  ∃ (a : Addr) (ow : Obj), H[a]? = some ow ∧ TempIn H base ow.val p

theorem TempOk.mono {H H' : Heap} {base : Nat} {p : Addr} {o : Obj} (hp : H <+: H') (h : TempOk H base p o) : TempOk H' base p o := by
  have get : ∀ {i : Addr} {x : Obj}, H[i]? = some x → H'[i]? = some x := by
    intro i x hx
    obtain ⟨t, rfl⟩ := hp
    rw [List.getElem?_append_left (lt_of_getElem? hx)]; exact hx
  rcases h with ⟨k, v, e, a, cl, es, h1, h2⟩ | ⟨a, ow, h1, h2⟩
  · exact .inl ⟨k, v, e, a, cl, es, get h1, h2⟩
  · exact .inr ⟨a, ow, get h1, h2.mono hp⟩

/-- classes of the objects made for a dump -/
theorem TempIn.cls {H : Heap} {base : Nat} {v : Val} {p : Addr} (h : TempIn H base v p) : ∃ o, H[p]? = some o ∧
    (o.cls = .list ∨ o.cls = .tuple ∨ o.cls = .str ∨ o.cls = .ndarray ∨ o.cls = .npBool ∨ o.cls = .int) := by
  cases h with
  | leaf _ h2 h3 => refine ⟨_, h2, ?_⟩; cases h3 <;> simp
  | row _ h2 h3 => refine ⟨_, h2, ?_⟩; rcases h3 with h3 | h3 <;> simp [h3]
  | elems _ h2 => exact ⟨_, h2, .inl rfl⟩

end Verif
