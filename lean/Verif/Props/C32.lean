import Verif.Hickle.LegacyV3
import Verif.Hickle.Spec
/-!
# C32 Version 3 sequences are read in numeric order
-/
namespace Verif.V3

/-! ### sorting -/

theorem insertBy_perm {α : Type} (le : α → α → Bool) (x : α) (l : List α) : (insertBy le x l).Perm (x :: l) := by
  induction l with
  | nil => exact .refl _
  | cons y ys ih =>
    simp only [insertBy]
    split
    · exact (ih.cons y).trans (.swap ..)
    · exact .refl _

theorem sortBy_go_perm {α : Type} (le : α → α → Bool) (xs : List α) : ∀ acc, (xs.foldl (fun acc x => insertBy le x acc) acc).Perm (acc ++ xs) := by
  induction xs with
  | nil => intro acc; simp
  | cons x xs ih =>
    intro acc
    refine (ih _).trans ?_
    refine ((insertBy_perm le x acc).append_right xs).trans ?_
    exact List.perm_middle.symm

theorem sortBy_perm {α : Type} (le : α → α → Bool) (xs : List α) : (sortBy le xs).Perm xs := by
  simpa [sortBy] using sortBy_go_perm le xs []

theorem insertBy_sorted {α : Type} {le : α → α → Bool} (tot : ∀ a b, le a b = false → le b a = true) (tr : ∀ a b c, le a b = true → le b c = true → le a c = true)
    (x : α) (l : List α) (h : l.Pairwise fun a b => le a b = true) : (insertBy le x l).Pairwise fun a b => le a b = true := by
  induction l with
  | nil => simp [insertBy]
  | cons y ys ih =>
    rw [List.pairwise_cons] at h
    simp only [insertBy]
    split
    · next hyx =>
      rw [List.pairwise_cons]
      refine ⟨fun z hz => ?_, ih h.2⟩
      rcases List.mem_cons.1 ((insertBy_perm le x ys).mem_iff.1 hz) with rfl | hz
      · exact hyx
      · exact h.1 z hz
    · next hyx =>
      have hxy := tot y x (by simpa using hyx)
      rw [List.pairwise_cons]
      refine ⟨fun z hz => ?_, List.pairwise_cons.2 h⟩
      rcases List.mem_cons.1 hz with rfl | hz
      · exact hxy
      · exact tr _ _ _ hxy (h.1 z hz)

theorem sortBy_sorted {α : Type} {le : α → α → Bool} (tot : ∀ a b, le a b = false → le b a = true) (tr : ∀ a b c, le a b = true → le b c = true → le a c = true)
    (xs : List α) : (sortBy le xs).Pairwise fun a b => le a b = true := by
  have : ∀ acc : List α, acc.Pairwise (fun a b => le a b = true) → (xs.foldl (fun acc x => insertBy le x acc) acc).Pairwise fun a b => le a b = true := by
    induction xs with
    | nil => intro acc h; exact h
    | cons x xs ih => intro acc h; exact ih _ (insertBy_sorted tot tr x acc h)
  exact this [] .nil

/-- a list whose elements are in increasing order of `f` is the only such arrangement -/
theorem sorted_unique {α : Type} {f : α → Nat} : ∀ {l m : List α}, l.Perm m → (l.Pairwise fun a b => f a ≤ f b) → (m.Pairwise fun a b => f a < f b) → l = m := by
  intro l
  induction l with
  | nil => intro m h _ _; exact h.nil_eq
  | cons a l ih =>
    intro m h h1 h2
    cases m with
    | nil => exact absurd h.length_eq (by simp)
    | cons b m =>
      rw [List.pairwise_cons] at h1 h2
      have hab : a = b := by
        rcases List.mem_cons.1 (h.mem_iff.1 (by simp : a ∈ a :: l)) with e | ha
        · exact e
        · rcases List.mem_cons.1 (h.mem_iff.2 (by simp : b ∈ b :: m)) with e | hb
          · exact e.symm
          · have := h1.1 b hb
            have := h2.1 a ha
            omega
      subst hab
      rw [ih (List.perm_cons a |>.1 h) h1.2 h2.2]

/-- names that contain a number -/
def Numbered (keys : List PyStr) : Prop := ∀ k ∈ keys, (number k).isSome = true
def Ascii (keys : List PyStr) : Prop := ∀ k ∈ keys, ∀ c ∈ k, c < 128

theorem sortKeys_ascii {keys : List PyStr} (h : Ascii keys) : ∃ r, sortKeys keys = .ok r ∧ r.Perm keys := by
  unfold sortKeys
  rw [if_pos (by simpa [Ascii] using h)]
  split
  · exact ⟨_, rfl, sortBy_perm ..⟩
  · exact ⟨_, rfl, sortBy_perm ..⟩

/-- **C32, names.**  The members visited are the members of the group, none dropped and none twice.  If every name contains a number
they are visited in the order of these numbers. -/
theorem C32_names {keys : List PyStr} (ha : Ascii keys) : ∃ r, sortKeys keys = .ok r ∧ r.Perm keys ∧
    (Numbered keys → r.Pairwise fun a b => (number a).getD 0 ≤ (number b).getD 0) := by
  obtain ⟨r, h1, h2⟩ := sortKeys_ascii ha
  refine ⟨r, h1, h2, fun hn => ?_⟩
  by_cases hk : keys = []
  · subst hk
    rw [h2.eq_nil]; exact .nil
  · unfold sortKeys at h1
    rw [if_pos (by simpa [Ascii] using ha), if_pos (by simpa [hk, Numbered] using hn)] at h1
    injection h1 with h1
    subst h1
    have := sortBy_sorted (le := fun a b : PyStr => decide ((number a).getD 0 ≤ (number b).getD 0)) (by simp; omega) (by simp; omega) keys
    simpa using this

/-- a name with a running number: `pre` has no digit, what follows the number does not begin with one -/
structure NameScheme where
  pre : PyStr
  post : PyStr
  pre_ok : ∀ c ∈ pre, isDigit c = false ∧ c < 128
  post_ok : (∀ c ∈ post, c < 128) ∧ ∀ c, post.head? = some c → isDigit c = false

def NameScheme.name (s : NameScheme) (i : Nat) : PyStr := s.pre ++ digits i ++ s.post

theorem NameScheme.number (s : NameScheme) (i : Nat) : V3.number (s.name i) = some i := by
  unfold V3.number firstDigits NameScheme.name
  have h1 : (s.pre ++ digits i ++ s.post).dropWhile (fun c => !isDigit c) = digits i ++ s.post := by
    rw [List.append_assoc, List.dropWhile_append_of_pos (by intro c hc; simp [(s.pre_ok c hc).1])]
    cases hd : digits i with
    | nil => exact absurd hd (digits_ne_nil i)
    | cons c t =>
      have := digits_isDigit i c (by rw [hd]; simp)
      simp [this]
  rw [h1, List.takeWhile_append_of_pos (digits_isDigit i)]
  have h2 : s.post.takeWhile isDigit = [] := by
    cases hp : s.post with
    | nil => rfl
    | cons c t => simp [s.post_ok.2 c (by rw [hp]; rfl)]
  rw [h2, List.append_nil, parseNat_digits]

theorem NameScheme.ascii (s : NameScheme) (i : Nat) : ∀ c ∈ s.name i, c < 128 := by
  intro c hc
  simp only [NameScheme.name, List.mem_append] at hc
  rcases hc with (hc | hc) | hc
  · exact (s.pre_ok c hc).2
  · have := digits_isDigit i c hc
    simp [isDigit] at this; omega
  · exact s.post_ok.1 c hc

theorem range_map_sorted {α : Type} (f : Nat → α) (g : α → Nat) (h : ∀ i, g (f i) = i) (n : Nat) : ((List.range n).map f).Pairwise fun a b => g a < g b := by
  rw [List.pairwise_map]
  simp only [h]
  exact List.pairwise_lt_range

/-- **C32, running numbers.**  However h5py lists the members `data_0`, `data_1`, ..., they are visited in the order of their number. -/
theorem C32_running (s : NameScheme) (n : Nat) {keys : List PyStr} (h : keys.Perm ((List.range n).map s.name)) :
    sortKeys keys = .ok ((List.range n).map s.name) := by
  have ha : Ascii keys := by
    intro k hk
    obtain ⟨i, _, rfl⟩ := List.mem_map.1 (h.mem_iff.1 hk)
    exact s.ascii i
  obtain ⟨r, h1, h2, h3⟩ := C32_names ha
  rw [h1]
  congr 1
  refine sorted_unique (f := fun k => (number k).getD 0) (h2.trans h) (h3 ?_) ?_
  · intro k hk
    obtain ⟨i, _, rfl⟩ := List.mem_map.1 (h.mem_iff.1 hk)
    rw [s.number]; rfl
  · exact range_map_sorted _ _ (fun i => by rw [s.number]; rfl) n

/-! ### sequences -/

/-- `data_%i` (loaders/load_python3.py:66 and hickle.py:357) -/
def scheme : NameScheme := ⟨ps "data_", [], by decide, by simp⟩

theorem scheme_name (i : Nat) : scheme.name i = dataName i := by simp [NameScheme.name, scheme, dataName]

theorem dataName_inj {i j : Nat} (h : dataName i = dataName j) : i = j := by
  rw [← scheme_name, ← scheme_name] at h
  have := scheme.number i
  rw [h, scheme.number j] at this
  simpa using this.symm

/-- the elements of a set: hashable and different from each other -/
def Elements (oeq : Nat → Nat → Bool) (items : List PV) : Prop :=
  (∀ v ∈ items, v.view.isSome = true) ∧ items.Pairwise fun v w => v.same oeq w = false

theorem setOf_elements {oeq : Nat → Nat → Bool} : ∀ {acc items : List PV}, Elements oeq (acc ++ items) → setOf oeq acc items = .ok (acc ++ items)
  | acc, [], _ => by simp [setOf]
  | acc, v :: vs, h => by
    have h1 : v.view.isNone = false := by
      have := h.1 v (by simp)
      cases hv : v.view <;> simp_all
    have h2 : (acc.any fun w => w.same oeq v) = false := by
      rw [List.any_eq_false]
      intro w hw
      have := (List.pairwise_append.1 h.2).2.2 w hw v (by simp)
      simp [this]
    rw [setOf, if_neg (by simp [h1]), if_neg (by simp [h2]), setOf_elements (by simpa using h)]
    simp

theorem mkSeq_ok {l : Libs} {k : SeqK} {items : List PV} (h : k = .set → Elements l.env.opaqueEq items) : mkSeq l k items = .ok (.seq k items) := by
  unfold mkSeq
  split
  · rw [setOf_elements (acc := []) (by simpa using h rfl)]; rfl
  · rfl

/-- Node `n` is what version 3 writes for the value: a dataset, or for a sequence a group whose members `data_0`, `data_1`, ... are
what it writes for the items; h5py may list them in any order. -/
inductive Writes (l : Libs) : PV → Node → Prop
  | data {v : PV} {d : DSet} {at' : List (String × String)} : (∀ sib name, loadDataset l sib name d at' = .ok v) → Writes l v (.dset d at')
  | seq {type : String} {k : SeqK} {items : List PV} {at' : List (String × String)} {members : Members} (node : Nat → Node) :
      Assoc.get? at' "type" = some type → seqKind type = some k → (k = .set → Elements l.env.opaqueEq items) →
      (l.order members).Perm ((List.range items.length).map dataName) →
      (∀ i, i < items.length → Assoc.get? members (dataName i) = some (node i)) →
      (∀ (i : Nat) (o : PV), items[i]? = some o → Writes l o (node i)) → Writes l (.seq k items) (.group at' members)

theorem mapM_range {α β : Type} (f : α → Except PyErr β) (g : Nat → α) (items : List β) (h : ∀ (i : Nat) (b : β), items[i]? = some b → f (g i) = .ok b) :
    ((List.range items.length).map g).mapM f = .ok items := by
  induction items generalizing g with
  | nil => rfl
  | cons b items ih =>
    rw [List.length_cons, List.range_succ_eq_map, List.map_cons, List.mapM_cons, h 0 b rfl, List.map_map]
    have := ih (g ∘ Nat.succ) (fun i b hb => h (i + 1) b (by simpa using hb))
    rw [this]; rfl

theorem max_fuel {Q : Nat → Nat → Prop} (n : Nat) (h : ∀ i, i < n → ∃ f0, ∀ f, f0 ≤ f → Q i f) : ∃ f0, ∀ i, i < n → ∀ f, f0 ≤ f → Q i f := by
  induction n with
  | zero => exact ⟨0, by omega⟩
  | succ n ih =>
    obtain ⟨f1, h1⟩ := ih fun i hi => h i (by omega)
    obtain ⟨f2, h2⟩ := h n (by omega)
    refine ⟨max f1 f2, fun i hi f hf => ?_⟩
    by_cases hin : i = n
    · subst hin; exact h2 f (by omega)
    · exact h1 i (by omega) f (by omega)

theorem running {n : Nat} {keys : List PyStr} (h : keys.Perm ((List.range n).map dataName)) : sortKeys keys = .ok ((List.range n).map dataName) := by
  have he : (List.range n).map dataName = (List.range n).map scheme.name := by
    simp only [List.map_inj_left]; intro i _; rw [scheme_name]
  rw [he] at h ⊢
  exact C32_running scheme n h

theorem seqKind_cases {type : String} {k : SeqK} (h : seqKind type = some k) : unsorted.contains type = false ∧ type ≠ "dict_item" := by
  unfold seqKind at h
  by_cases h1 : type = "<class 'list'>" ∨ type = "<type 'list'>"
  · clear h; rcases h1 with rfl | rfl <;> decide
  by_cases h2 : type = "<class 'tuple'>" ∨ type = "<type 'tuple'>"
  · clear h; rcases h2 with rfl | rfl <;> decide
  by_cases h3 : type = "<class 'set'>" ∨ type = "<type 'set'>"
  · clear h; rcases h3 with rfl | rfl <;> decide
  rw [if_neg h1, if_neg h2, if_neg h3] at h
  simp at h

theorem load_group {l : Libs} {f : Nat} {sib ms : Members} {name : PyStr} {at' : List (String × String)} {type : String} {kt : Option String} {keys : List PyStr}
    {items : List PV} (h1 : Assoc.get? at' "type" = some type) (h2 : keyTypeOf type at' = .ok kt) (h3 : visit type (l.order ms) = .ok keys)
    (h4 : keys.mapM (member (load l f ms) ms) = .ok items) : load l (f + 1) sib name (.group at' ms) = convert l type name kt items := by
  simp only [load, h1]
  rw [h2]
  simp only [bind, Except.bind]
  rw [h3]
  simp only []
  rw [h4]

/-- **C32, sequences.**  A list, tuple or set written by version 3, nested to any depth and of any size, is loaded with its items
in order, whatever order h5py lists the members in, given enough stack. -/
theorem C32_sequence {l : Libs} {v : PV} {n : Node} (h : Writes l v n) : ∃ f0, ∀ f, f0 ≤ f → ∀ sib name, load l f sib name n = .ok v := by
  induction h with
  | data h =>
    refine ⟨1, fun f hf sib name => ?_⟩
    obtain ⟨f, rfl⟩ := Nat.exists_eq_add_of_le hf
    rw [Nat.add_comm]
    exact h sib name
  | @seq type k items at' members node h0 h1 hs h2 h3 _ ih =>
    obtain ⟨f0, hf0⟩ := max_fuel (Q := fun i f => ∀ o, items[i]? = some o → ∀ sib name, load l f sib name (node i) = .ok o) items.length (by
      intro i hi
      obtain ⟨f0, h⟩ := ih i items[i] (by simp [hi])
      refine ⟨f0, fun f hf o ho name => ?_⟩
      rw [List.getElem?_eq_getElem hi] at ho
      cases ho
      exact h f hf name)
    refine ⟨f0 + 1, fun f hf sib name => ?_⟩
    obtain ⟨f, rfl⟩ : ∃ g, f = g + 1 := ⟨f - 1, by omega⟩
    obtain ⟨hu, hd⟩ := seqKind_cases h1
    have hv : visit type (l.order members) = .ok ((List.range items.length).map dataName) := by
      unfold visit
      rw [hu, if_neg (by simp), running h2]
    have hm : ((List.range items.length).map dataName).mapM (member (load l f members) members) = .ok items := by
      refine mapM_range (β := PV) _ dataName items fun i b hb => ?_
      have hi : i < items.length := (List.getElem?_eq_some_iff.1 hb).1
      unfold member
      rw [h3 i hi]
      exact hf0 i hi f (by omega) b hb _ _
    rw [load_group h0 (by rw [keyTypeOf, if_neg hd]) hv hm]
    simp only [convert, h1]
    exact mkSeq_ok hs

/-- the whole file: the root group has the member `data_0` -/
theorem C32_file {l : Libs} {v : PV} {n : Node} (ho : l.order [(dataName 0, n)] = [dataName 0]) (h : Writes l v n) :
    ∃ f0, ∀ f, f0 ≤ f → loadFile l f [] (.group [("CLASS", "hickle"), ("VERSION", "3.4.8"), ("type", "hickle")] [(dataName 0, n)]) = .ok v := by
  obtain ⟨f0, hf⟩ := C32_sequence h
  refine ⟨f0 + 1, fun f hle => ?_⟩
  obtain ⟨f, rfl⟩ : ∃ g, f = g + 1 := ⟨f - 1, by omega⟩
  have hg := load_group (l := l) (f := f) (sib := []) (ms := [(dataName 0, n)]) (name := []) (at' := [("CLASS", "hickle"), ("VERSION", "3.4.8"), ("type", "hickle")])
    (type := "hickle") (kt := none) (keys := [dataName 0]) (items := [v]) (by simp [Assoc.get?]) (by simp [keyTypeOf]) (by
      unfold visit
      rw [if_neg (by decide), ho]
      exact running (n := 1) (.refl _)) (by
      simp only [List.mapM_cons, List.mapM_nil, member, Assoc.get?, if_true, hf f (by omega), bind, Except.bind, pure, Except.pure])
  have hv : verMajor "3.4.8" = some 3 := by decide +kernel
  simp only [loadFile, Assoc.get?, String.reduceEq, if_false, if_true, hv, nodeAt]
  simp only [show ¬ ((3 : Int) = 1 ∨ (3 : Int) = 2) by decide, show (3 : Int) ≥ 3 by decide, if_false, if_true, List.getLast?_nil, Option.getD_none]
  rw [hg]
  simp [convert, seqKind, spKind, firstOf, bind, Except.bind]

/-- an environment: h5py 2 writes and reads, and lists the members of a group by name -/
def Ex.env : Env where
  u := fun _ => { name := "", origin := .core, bases := [], picklable := true, importable := true, ctor := fun _ => .error .unmodelled }
  mods := fun _ => none
  reprF := fun _ => ps "0.0"
  parseF := fun _ => some .zero
  reprC := fun _ _ => ps "0j"
  parseC := fun _ => some (.zero, .zero)
  maxDigits := some 4300
  maxDims := 32
  raggedRaises := true
  opaqueEq := fun s t => s = t

def Ex.libs : Libs where
  env := Ex.env
  printable := fun _ => true
  newW := false
  newR := false
  order := fun ms => sortBy textLe (ms.map Prod.fst)

/-- a number as version 3 writes it -/
def Ex.int (i : Int) : Node := .dset (.scalar (.i i)) [("type", "python_dtype"), ("python_subdtype", "<class 'int'>")]

/-- a list of twelve items, the last one a tuple of two, as h5py lists it: in alphabetic order -/
def Ex.twelve : Node := .group [("type", "<class 'list'>")] [(ps "data_0", Ex.int 0), (ps "data_1", Ex.int 1), (ps "data_10", Ex.int 10), (ps "data_11",
  .group [("type", "<class 'tuple'>")] [(ps "data_1", Ex.int 101), (ps "data_0", Ex.int 100)]), (ps "data_2", Ex.int 2), (ps "data_3", Ex.int 3), (ps "data_4", Ex.int 4),
  (ps "data_5", Ex.int 5), (ps "data_6", Ex.int 6), (ps "data_7", Ex.int 7), (ps "data_8", Ex.int 8), (ps "data_9", Ex.int 9)]

theorem Ex.int_writes (l : Libs) (i : Int) : Writes l (.int i) (Ex.int i) := .data fun _ _ => by
  simp [loadDataset, Assoc.get?, dsetKind, castPy]

/-- the hypothesis of `C32_sequence` holds for a list with a number and a tuple whose members h5py lists in another order -/
example : Writes { Ex.libs with order := fun ms => (ms.map Prod.fst).reverse } (.seq .list [.int 7, .seq .tuple [.int 8]])
    (.group [("type", "<class 'list'>")] [(dataName 0, Ex.int 7), (dataName 1, .group [("type", "<class 'tuple'>")] [(dataName 0, Ex.int 8)])]) := by
  have hn : ¬ dataName 0 = dataName 1 := fun h => absurd (dataName_inj h) (by decide)
  refine .seq (fun i => if i = 0 then Ex.int 7 else .group [("type", "<class 'tuple'>")] [(dataName 0, Ex.int 8)]) rfl (type := "<class 'list'>") rfl (by simp) (.swap ..) ?_ ?_
  · intro i hi
    have : i = 0 ∨ i = 1 := by simp at hi; omega
    rcases this with rfl | rfl <;> simp [Assoc.get?, hn]
  · intro i o ho
    match i, ho with
    | 0, ho => simp at ho; subst ho; exact Ex.int_writes _ 7
    | 1, ho =>
      simp at ho; subst ho
      refine .seq (fun _ => Ex.int 8) rfl (type := "<class 'tuple'>") rfl (by simp) (.refl _) ?_ ?_
      · intro i hi
        have : i = 0 := by simp at hi; omega
        subst this; simp [Assoc.get?]
      · intro i o ho
        match i, ho with
        | 0, ho => simp at ho; subst ho; exact Ex.int_writes _ 8

example : load { Ex.libs with order := fun ms => ms.map Prod.fst } 3 [] [] Ex.twelve =
    .ok (.seq .list (((List.range 11).map fun (i : Nat) => .int i) ++ [.seq .tuple [.int 100, .int 101]])) := by
  rfl

/-- **C32 is violated** in a group that has a member without a number besides: then `data_10` is visited before `data_2`. -/
theorem C32_violated_mixed : sortKeys [ps "data_2", ps "data_10", ps "extra"] = .ok [ps "data_10", ps "data_2", ps "extra"] := by rfl

/-- **C32 is violated** by names that are not ASCII: the group can not be read at all.  Version 3 names the members of a dictionary
by the keys, and these groups are sorted too (`types_not_to_sort` has `dict`, where the type is `<class 'dict'>`). -/
theorem C32_violated_ascii (l : Libs) (fuel : Nat) (sib : Members) (name : PyStr) (n : Node) (ho : ∀ ms, (l.order ms).Perm (ms.map Prod.fst)) :
    load l (fuel + 1) sib name (.group [("type", "<class 'dict'>")] [([39, 0xe4, 39], n)]) = .error .unicodeEncodeError := by
  have := (ho [([39, 0xe4, 39], n)]).symm.singleton_eq
  simp only [load, Assoc.get?, if_true]
  rw [← this]
  rfl

end Verif.V3
