import Verif.Props.C15
import Verif.Props.C07
/-!
# C61 The data in the file can be found and read without hickle

Specification first; it mentions neither dump nor load, nor attributes, nor the types table.
-/
namespace Verif

variable {P : Nat → Prop}

namespace Plain

/-! ## what a program that knows nothing of hickle finds -/

/-- the content of a dataset: numbers of one type in a shape, a text of bytes, or nothing -/
inductive Seen where
  | numbers (d : DT) (shape : List Nat) (vs : List NpVal)
  | text (b : Bytes)
  | nothing
  deriving DecidableEq, Repr

def seen : Data → Option Seen
  | .scalar v => some (.numbers v.dt [] [v])
  | .vec d vs => some (.numbers d [vs.length] vs)
  | .array d sh vs => some (.numbers d sh vs)
  | .chars b | .raw b => some (.text b)
  | .null _ => some .nothing
  | _ => none

/-- the node an object reference points to -/
def follow (S : Store) (n : NodeId) : NodeId :=
  match S[n]? with
  | some ⟨_, _, .dset (.ref t)⟩ => t
  | _ => n

/-- go down from a group by names, following object references -/
def walk (S : Store) : NodeId → List PyStr → Option NodeId
  | n, [] => some n
  | n, x :: xs =>
    match S.links n with
    | none => none
    | some ls => match Assoc.get? ls x with
      | none => none
      | some m => walk S (follow S m) xs

/-! ## parts of a value and their names -/

/-- the names of keys: strings and bytes in quotes, `repr` of Python numbers.  There is no such name for texts with a slash or,
as for strings, a backslash. -/
inductive KeyName (env : Env) : Obj → PyStr → Prop
  | str {c s} : 47 ∉ s → 92 ∉ s → KeyName env ⟨c, .str s⟩ (34 :: s ++ [34])
  | bytes {c b s} : (47 : UInt8) ∉ b → utf8Decode b = some s → KeyName env ⟨c, .bytes b⟩ (98 :: 34 :: s ++ [34])
  | none : KeyName env ⟨.noneType, .none⟩ (ps "None")
  | bool {b} : KeyName env ⟨.bool, .bool b⟩ (if b then ps "True" else ps "False")
  | int {i} : KeyName env ⟨.int, .int i⟩ (showInt i)
  | float {x} : 47 ∉ env.reprF x → 92 ∉ env.reprF x → KeyName env ⟨.float, .float x⟩ (env.reprF x)
  | cplx {x y} : 47 ∉ env.reprC x y → 92 ∉ env.reprC x y → KeyName env ⟨.complex, .cplx x y⟩ (env.reprC x y)

/-- keys without a name -/
inductive Nameless : Obj → Prop
  | str {c s} : 47 ∈ s ∨ 92 ∈ s → Nameless ⟨c, .str s⟩
  | bytes {c b} : (47 : UInt8) ∈ b ∨ utf8Decode b = none → Nameless ⟨c, .bytes b⟩
  | tuple {l} : Nameless ⟨.tuple, .seq l⟩
  | np {c v} : c = .npBool ∨ c = .npInt64 ∨ c = .npFloat64 ∨ c = .npComplex128 → Nameless ⟨c, .np v⟩

/-- not all of the items are numbers -/
def Mixed (H : Heap) (items : List Addr) : Prop := ∃ c ∈ items, numDt H c = none

/-- the parts of a value and their names: items by their number, values by their key, or else key and value together by the
number of the entry, rows of arrays of strings and objects by their number, and the parts of masked arrays and sparse matrices -/
inductive Part (env : Env) (H : Heap) : Val → PyStr → Val → Prop
  | item {items i b o} : Mixed H items → items[i]? = some b → H[b]? = some o → Part env H (.seq items) (dataName i) o.val
  | elem {items i b o} : Mixed H items → items[i]? = some b → H[b]? = some o → Part env H (.set items) (dataName i) o.val
  | value {es k v q o name} : (k, v) ∈ es → H[k]? = some q → KeyName env q name → H[v]? = some o → Part env H (.dict es) name o.val
  | entry {es i k v q} : es[i]? = some (k, v) → H[k]? = some q → Nameless q → Part env H (.dict es) (dataName i) (.seq [k, v])
  | row {w n sh ss i} : i < n → Part env H (.sarr w (n :: sh) ss) (dataName i) (.sarr w sh ((ss.drop (i * shSize sh)).take (shSize sh)))
  | oitem {n items i b o} : Mixed H items → items[i]? = some b → H[b]? = some o → Part env H (.oarr [n] items) (dataName i) o.val
  | orow {n m sh items i} : i < n →
      Part env H (.oarr (n :: m :: sh) items) (dataName i) (.oarr (m :: sh) ((items.drop (i * shSize (m :: sh))).take (shSize (m :: sh))))
  | data {d sh vs m} : Part env H (.masked d sh vs m) (ps "data") (.arr d sh vs)
  | mask {d sh vs m} : Part env H (.masked d sh vs (some m)) (ps "mask") (.arr .bool sh (m.map .b))
  | nomask {d sh vs} : Part env H (.masked d sh vs none) (ps "mask") (.np (.b false))
  | values {d i p sh o} : H[d]? = some o → Part env H (.sparse d i p sh) (ps "data") o.val
  | indices {d i p sh o} : H[i]? = some o → Part env H (.sparse d i p sh) (ps "indices") o.val
  | indptr {d i p sh o} : H[p]? = some o → Part env H (.sparse d i p sh) (ps "indptr") o.val
  | shape {d i p sh} : Part env H (.sparse d i p sh) (ps "shape") (.arr .int64 [sh.length] (sh.map fun (n : Nat) => .i n))

/-- a way down from a value to a part of it, by names -/
inductive Path (env : Env) (H : Heap) : Val → List PyStr → Val → Prop
  | nil {v} : Path env H v [] v
  | cons {u v w x xs} : Part env H u x v → Path env H v xs w → Path env H u (x :: xs) w

/-! ## how a value is shown -/

/-- `w` is the number `c`, in the numpy type `t`: the very same if that is its type, and of the same value if that is possible -/
def IsNum (H : Heap) (t : DT) (w : NpVal) (c : Addr) : Prop :=
  ∃ o v, H[c]? = some o ∧ exactNum o = some v ∧ w.dt = t ∧ (v.dt = t → w = v) ∧ (v.Fits t → w.val = v.val)

/-- The member of a group for entry `e`. -/
def EntryName (env : Env) (H : Heap) (name : PyStr) (e : (Addr × Addr) × Nat) : Prop :=
  ∃ q, H[e.1.1]? = some q ∧ (KeyName env q name ∨ name = dataName e.2)

/-- The node shows the value: numbers, texts and arrays as such, sequences and sets of numbers as arrays, other sequences and sets, and
dicts, masked arrays and sparse matrices as groups with exactly one member for each part. -/
inductive Shows (env : Env) (H : Heap) : Val → Body → Prop
  | none {d} : seen d = some .nothing → Shows env H .none (.dset d)
  | bool {b d} : seen d = some (.numbers .bool [] [.b b]) → Shows env H (.bool b) (.dset d)
  | int {i d} : i.natAbs < 2 ^ 63 → seen d = some (.numbers .int64 [] [.i i]) → Shows env H (.int i) (.dset d)
  | bigInt {i d} : 2 ^ 63 ≤ i.natAbs → seen d = some (.text (asciiBytes (showInt i))) → Shows env H (.int i) (.dset d)
  | float {x d} : seen d = some (.numbers .float64 [] [.f x]) → Shows env H (.float x) (.dset d)
  | cplx {x y d} : seen d = some (.numbers .complex128 [] [.c x y]) → Shows env H (.cplx x y) (.dset d)
  | np {v d} : seen d = some (.numbers v.dt [] [v]) → Shows env H (.np v) (.dset d)
  | str {s b d} : utf8Encode s = some b → seen d = some (.text b) → Shows env H (.str s) (.dset d)
  | bytes {b d} : seen d = some (.text b) → Shows env H (.bytes b) (.dset d)
  | arr {t sh vs d} : seen d = some (.numbers t sh vs) → Shows env H (.arr t sh vs) (.dset d)
  | noItems {d} : seen d = some .nothing → Shows env H (.seq []) (.dset d)
  | noElems {d} : seen d = some (.numbers .int64 [0] []) → Shows env H (.set []) (.dset d)
  | numbers {items t vs d} : items ≠ [] → All2 (IsNum H t) vs items → seen d = some (.numbers t [items.length] vs) →
      Shows env H (.seq items) (.dset d)
  | elemNumbers {items t vs d} : items ≠ [] → All2 (IsNum H t) vs items → seen d = some (.numbers t [items.length] vs) →
      Shows env H (.set items) (.dset d)
  | seq {items ls} : Mixed H items → ls.map Prod.fst = (List.range items.length).map dataName → Shows env H (.seq items) (.group ls)
  | set {items ls} : Mixed H items → ls.map Prod.fst = (List.range items.length).map dataName → Shows env H (.set items) (.group ls)
  | dict {es ls} : All2 (EntryName env H) (ls.map Prod.fst) es.zipIdx → Shows env H (.dict es) (.group ls)
  | string {w s b d} : utf8Encode s = some b → seen d = some (.text b) → Shows env H (.sarr w [] [s]) (.dset d)
  | noRows {w sh ss d} : seen d = some .nothing → Shows env H (.sarr w (0 :: sh) ss) (.dset d)
  | rows {w n sh ss ls} : n ≠ 0 → ls.map Prod.fst = (List.range n).map dataName → Shows env H (.sarr w (n :: sh) ss) (.group ls)
  | oarr {n items bd} : Shows env H (.seq items) bd → Shows env H (.oarr [n] items) bd
  | noObjRows {m sh items d} : seen d = some .nothing → Shows env H (.oarr (0 :: m :: sh) items) (.dset d)
  | objRows {n m sh items ls} : n ≠ 0 → ls.map Prod.fst = (List.range n).map dataName → Shows env H (.oarr (n :: m :: sh) items) (.group ls)
  | masked {d sh vs m ls} : ls.map Prod.fst = [ps "data", ps "mask"] → Shows env H (.masked d sh vs m) (.group ls)
  | sparse {d i p sh ls} : ls.map Prod.fst = [ps "data", ps "indices", ps "indptr", ps "shape"] → Shows env H (.sparse d i p sh) (.group ls)

/-- values hickle does not store by pickle, other than arrays of objects without dimensions -/
def Covered : Val → Bool
  | .none | .bool _ | .int _ | .float _ | .cplx .. | .str _ | .bytes _ | .seq _ | .set _ | .dict _ | .np _ | .arr .. | .masked .. | .sparse .. => true
  | .sarr .. => true
  | .oarr sh _ => sh ≠ []
  | _ => false

/-- object graphs: any, cyclic or not, with classes whose loaders are those of hickle -/
structure Graph (P : Nat → Prop) (env : Env) (H : Heap) : Prop where
  cls : ∀ (a : Addr) (o : Obj), H[a]? = some o → GoodCls P env o.cls ∧ ObjOk env o
  wf : ∀ (a : Addr) (o : Obj), H[a]? = some o → ∀ b ∈ o.val.children, b < H.length
  /-- no key is of a class of the program that is called like a built-in one -/
  keys : ∀ (a : Addr) (o : Obj) es, H[a]? = some o → o.val = .dict es → ∀ k v, (k, v) ∈ es → ∀ q, H[k]? = some q →
    ∀ u, q.cls = .user u → dictKeyTypes.contains (env.u u).name = false

/-! ## proof -/

theorem walk_resolve {S : Store} {g : NodeId} (hg : ∃ ls, S.links g = some ls) : ∀ {xs : List PyStr} {n : NodeId}, S.resolve n xs = some g →
    ∀ ys, walk S n (xs ++ ys) = walk S g ys
  | [], n, h, ys => by simp [Store.resolve] at h; subst h; rfl
  | x :: xs, n, h, ys => by
    simp only [Store.resolve] at h
    simp only [List.cons_append, walk]
    cases hl : S.links n with
    | none => rw [hl] at h; simp at h
    | some ls =>
      rw [hl] at h; simp only at h ⊢
      cases hm : Assoc.get? ls x with
      | none => rw [hm] at h; simp at h
      | some m =>
        rw [hm] at h; simp only at h ⊢
        have hgr : ∃ l, S.links m = some l := by
          cases xs with
          | nil => simp [Store.resolve] at h; subst h; exact hg
          | cons y ys =>
            simp only [Store.resolve] at h
            cases hl' : S.links m with
            | none => rw [hl'] at h; simp at h
            | some l => exact ⟨l, rfl⟩
        have : follow S m = m := by
          obtain ⟨l, hl⟩ := hgr
          unfold Store.links at hl
          unfold follow
          split at hl
          · next h' => rw [h']
          · simp at hl
        rw [this]
        exact walk_resolve hg h ys

/-- node `n` is the node of an object with value `v`, in the heap `H` with the objects made for the dump -/
def Rep (env : Env) (base : Nat) (H : Heap) (W : Rel) (n : NodeId) (v : Val) : Prop :=
  (∃ b o, W n b ∧ H[b]? = some o ∧ o.val = v ∧ ((expected env o.cls).2.fn = .none → o.val = .none)) ∨
  (∃ b sh ls, W n b ∧ Nested base H .list sh ls b ∧ ((∃ w ss, v = .sarr w sh ss ∧ ls = ss.map fun s => .obj ⟨.str, .str s⟩) ∨
    ∃ items, sh ≠ [] ∧ v = .oarr sh items ∧ ls = items.map .addr)) ∨
  ∃ b items sh, W n b ∧ H[b]? = some ⟨.tuple, .seq items⟩ ∧ sh ≠ [] ∧ All2 (fun i (x : Nat) => H[i]? = some ⟨.int, .int x⟩) items sh ∧
    v = .arr .int64 [sh.length] (sh.map fun (n : Nat) => .i n)

theorem Head.not_ref {env : Env} {H : Heap} {fn o at' d subs} (h : Head env H fn o at' (some d) subs) : ∀ t, d ≠ .ref t := by
  intro t ht
  cases h <;> first | simp at ht | (next h => cases h <;> simp at ht)

theorem follow_child {env : Env} {base : Nat} {H : Heap} {S : Store} {W : Rel} {m : NodeId} {a : Addr} {attrs : Attrs}
    (hn : ∀ n b, W n b → NodeOk env base H S W n b) (h : Child S W m a attrs) : W (follow S m) a := by
  obtain ⟨nd, h1, _, h2 | ⟨t, h2, _, h3⟩⟩ := h
  · obtain ⟨o, nd', od, subs, _, g2, _, g4, g5⟩ := hn m a h2
    rw [h1] at g2
    cases g2
    have : follow S m = m := by
      unfold follow
      rw [h1]
      rcases nd with ⟨nm, at', bd⟩
      cases od with
      | none => obtain ⟨ls, g5, _⟩ := g5; simp only at g5; subst g5; rfl
      | some d =>
        simp only at g5; subst g5
        cases d with
        | ref t => exact absurd rfl (Head.not_ref g4 t)
        | _ => rfl
    rw [this]; exact h2
  · have : follow S m = t := by
      unfold follow
      rw [h1]
      rcases nd with ⟨nm, at', bd⟩
      simp only at h2; subst h2; rfl
    rw [this]; exact h3

theorem kid {env : Env} {base : Nat} {H : Heap} {S : Store} {W : Rel} {n : NodeId} {ls : List (PyStr × NodeId)} {subs : Subs} (hT : Tree S)
    (hn : ∀ n b, W n b → NodeOk env base H S W n b) (hl : S.links n = some ls) (hk : Kids base H S W ls subs) {sb : Sub} (hs : Except.ok sb ∈ subs) :
    ∃ m a, Assoc.get? ls sb.name = some m ∧ SubAt base H sb.obj a ∧ W (follow S m) a := by
  obtain ⟨_, a, m, h1, h2, h3⟩ := hk.mem hs
  exact ⟨m, a, Assoc.get?_of_mem (hT.names n ls hl) h1, h2, follow_child hn h3⟩

theorem listSubs_at {items : List Addr} {i : Nat} {b : Addr} (h : items[i]? = some b) : ∀ j,
    (listSubs j items)[i]? = some (.ok ⟨dataName (j + i), .addr b, [("item_index", .int (j + i : Nat))]⟩) := by
  induction items generalizing i with
  | nil => simp at h
  | cons c cs ih =>
    intro j
    cases i with
    | zero => simp at h; subst h; simp [listSubs]
    | succ i =>
      simp only [List.getElem?_cons_succ] at h
      simp only [listSubs, List.getElem?_cons_succ]
      rw [ih h (j + 1)]
      have : j + 1 + i = j + (i + 1) := by omega
      rw [this]

theorem dictSubs_at {env : Env} {H : Heap} {es : List (Addr × Addr)} {i : Nat} {k v : Addr} (h : es[i]? = some (k, v)) : ∀ j,
    (dictSubs env H j es)[i]? = some (dictSub env H (j + i) k v) := by
  induction es generalizing i with
  | nil => simp at h
  | cons c cs ih =>
    intro j
    cases i with
    | zero => simp at h; subst h; simp [dictSubs]
    | succ i =>
      simp only [List.getElem?_cons_succ] at h
      simp only [dictSubs, List.getElem?_cons_succ]
      rw [ih h (j + 1)]
      have : j + 1 + i = j + (i + 1) := by omega
      rw [this]

theorem not_mem_strSlash {s : PyStr} (h1 : 47 ∉ s) (h2 : 92 ∉ s) : strSlash s = false := by
  unfold strSlash
  rw [List.any_eq_false]
  intro c hc
  simp only [Bool.or_eq_true, decide_eq_true_eq, not_or]
  exact ⟨fun e => h1 (e ▸ hc), fun e => h2 (e ▸ hc)⟩

theorem strSlash_mem {s : PyStr} (h : 47 ∈ s ∨ 92 ∈ s) : strSlash s = true := by
  unfold strSlash
  rw [List.any_eq_true]
  rcases h with h | h
  · exact ⟨_, h, by decide⟩
  · exact ⟨_, h, by decide⟩

theorem mem_of_strSlash {s : PyStr} (h : strSlash s = false) : 47 ∉ s ∧ 92 ∉ s :=
  ⟨fun h' => by simp [strSlash_mem (.inl h')] at h, fun h' => by simp [strSlash_mem (.inr h')] at h⟩

theorem byteSlash_iff {b : Bytes} : byteSlash b = true ↔ (47 : UInt8) ∈ b := by
  unfold byteSlash
  rw [List.any_eq_true]
  constructor
  · rintro ⟨c, h1, h2⟩
    have : c = 47 := by
      apply UInt8.toNat_inj.1
      simpa using h2
    exact this ▸ h1
  · intro h; exact ⟨_, h, by decide⟩

theorem keySlot_name {env : Env} {q : Obj} {name : PyStr} (h : KeyName env q name) {r} (hr : keySlot env q = .ok r) : ∃ t, r = some (name, t) := by
  cases h with
  | str h1 h2 => simp [keySlot, not_mem_strSlash h1 h2] at hr; exact ⟨_, hr.symm⟩
  | @bytes c b s h1 h2 =>
    have : byteSlash b = false := by
      cases hb : byteSlash b with
      | false => rfl
      | true => exact absurd (byteSlash_iff.1 hb) h1
    simp [keySlot, this, h2] at hr; exact ⟨_, hr.symm⟩
  | none =>
    have : keySlot env ⟨.noneType, .none⟩ = .ok (some (ps "None", "NoneType")) := by with_unfolding_all rfl
    rw [this] at hr; cases hr; exact ⟨_, rfl⟩
  | @bool b =>
    have : keySlot env ⟨.bool, .bool b⟩ = .ok (some (if b then ps "True" else ps "False", "bool")) := by cases b <;> with_unfolding_all rfl
    rw [this] at hr; cases hr; exact ⟨_, rfl⟩
  | @int i =>
    have : keySlot env ⟨.int, .int i⟩ = match reprKey env (.int i) with
      | .error e => .error e
      | .ok r => .ok (if strSlash r then none else some (r, "int")) := by with_unfolding_all rfl
    rw [this] at hr
    simp only [reprKey] at hr
    by_cases hd : digitsOk env i = true
    · simp only [hd, if_true, strSlash_showInt, Bool.false_eq_true, if_false] at hr
      cases hr; exact ⟨_, rfl⟩
    · simp [hd] at hr
  | @float x h1 h2 =>
    have : keySlot env ⟨.float, .float x⟩ = .ok (if strSlash (env.reprF x) then none else some (env.reprF x, "float")) := by with_unfolding_all rfl
    rw [this, not_mem_strSlash h1 h2] at hr; cases hr; exact ⟨_, rfl⟩
  | @cplx x y h1 h2 =>
    have : keySlot env ⟨.complex, .cplx x y⟩ = .ok (if strSlash (env.reprC x y) then none else some (env.reprC x y, "complex")) := by with_unfolding_all rfl
    rw [this, not_mem_strSlash h1 h2] at hr; cases hr; exact ⟨_, rfl⟩

theorem keySlot_nameless {env : Env} {q : Obj} (h : Nameless q) : keySlot env q = .ok none := by
  cases h with
  | str h => simp [keySlot, strSlash_mem h]
  | bytes h =>
    rcases h with h | h
    · simp [keySlot, byteSlash_iff.2 h]
    · simp [keySlot, h]
  | tuple => with_unfolding_all rfl
  | np h => rcases h with rfl | rfl | rfl | rfl <;> with_unfolding_all rfl

/-- a name `package_dict_items` uses is the one of the specification, for the classes of the program too unless they are called like
a built-in one -/
theorem name_keySlot {env : Env} {q : Obj} (hq : ∀ k, q.cls = .user k → dictKeyTypes.contains (env.u k).name = false) (hok : ObjOk env q)
    {name t} (h : keySlot env q = .ok (some (name, t))) : KeyName env q name := by
  obtain ⟨c, v⟩ := q
  by_cases hs : ∃ s, v = .str s
  · obtain ⟨s, rfl⟩ := hs
    simp only [keySlot] at h
    split at h
    · simp at h
    · next hsl =>
      simp only [Except.ok.injEq, Option.some.injEq, Prod.mk.injEq] at h
      obtain ⟨rfl, rfl⟩ := h
      have := mem_of_strSlash (Bool.eq_false_iff.2 hsl)
      exact .str this.1 this.2
  by_cases hb : ∃ b, v = .bytes b
  · obtain ⟨b, rfl⟩ := hb
    simp only [keySlot] at h
    split at h
    · simp at h
    · next hsl =>
      split at h
      · simp at h
      · next s hd =>
        simp only [Except.ok.injEq, Option.some.injEq, Prod.mk.injEq] at h
        obtain ⟨rfl, rfl⟩ := h
        exact .bytes (fun h' => hsl (byteSlash_iff.2 h')) hd
  have h' : dictKeyTypes.contains (c.name env.u) = true ∧ ∃ r, reprKey env v = .ok r ∧ strSlash r = false ∧ name = r := by
    have hks : keySlot env ⟨c, v⟩ = if dictKeyTypes.contains (c.name env.u) then
        match reprKey env v with
        | .error e => .error e
        | .ok r => .ok (if strSlash r then none else some (r, c.name env.u))
      else .ok none := by
      cases v <;> first | rfl | exact absurd ⟨_, rfl⟩ hs | exact absurd ⟨_, rfl⟩ hb
    rw [hks] at h
    by_cases hc : dictKeyTypes.contains (c.name env.u) = true
    · refine ⟨hc, ?_⟩
      rw [if_pos hc] at h
      cases hr : reprKey env v with
      | error e => rw [hr] at h; simp at h
      | ok r =>
        rw [hr] at h
        refine ⟨r, rfl, ?_⟩
        cases hsl : strSlash r with
        | true => simp [hsl] at h
        | false => simp [hsl] at h; exact ⟨rfl, h.1.symm⟩
    · rw [if_neg hc] at h; simp at h
  obtain ⟨hc, r, hr, hsl, rfl⟩ := h'
  have hsl' := mem_of_strSlash hsl
  clear h hs hb
  cases c with
  | user k => have := hq k rfl; rw [show Cls.name env.u (.user k) = (env.u k).name from rfl] at hc; rw [hc] at this; simp at this
  | noneType =>
    cases v <;> simp [ObjOk, NativeOk] at hok
    simp [reprKey] at hr; subst hr; exact .none
  | bool =>
    cases v <;> simp [ObjOk, NativeOk] at hok
    simp [reprKey] at hr; subst hr; exact .bool
  | int =>
    cases v <;> simp [ObjOk, NativeOk] at hok
    simp only [reprKey] at hr
    split at hr
    · simp at hr; subst hr; exact .int
    · simp at hr
  | float =>
    cases v <;> simp [ObjOk, NativeOk] at hok
    simp [reprKey] at hr; subst hr; exact .float hsl'.1 hsl'.2
  | complex =>
    cases v <;> simp [ObjOk, NativeOk] at hok
    simp [reprKey] at hr; subst hr; exact .cplx hsl'.1 hsl'.2
  | _ => exact absurd hc (by simp [Cls.name, dictKeyTypes])

variable {env : Env} {H0 H : Heap} {S : Store} {W : Rel}

/-- the group of an object, and a member of it -/
theorem member {base : Nat} (hT : Tree S) (hn : ∀ n b, W n b → NodeOk env base H S W n b) {n : NodeId} {b : Addr} {o : Obj} (hw : W n b) (hb : H[b]? = some o)
    {sb : Sub} (hsub : ∀ at' od subs, Head env H (expected env o.cls).2.fn o at' od subs → od = none ∧ ((∀ x ∈ subs, ∃ sb, x = Except.ok sb) → Except.ok sb ∈ subs)) :
    ∃ ls m a, S.links n = some ls ∧ Assoc.get? ls sb.name = some m ∧ SubAt base H sb.obj a ∧ W (follow S m) a := by
  obtain ⟨o', nd, od, subs, g1, g2, _, g4, g5⟩ := hn n b hw
  rw [hb] at g1; cases g1
  obtain ⟨rfl, hs⟩ := hsub _ _ _ g4
  obtain ⟨ls, g5, g6⟩ := g5
  have hl : S.links n = some ls := by
    unfold Store.links; rw [g2]; rcases nd with ⟨nm, at', bd⟩; simp only at g5; subst g5; rfl
  obtain ⟨m, a, k1, k2, k3⟩ := kid hT hn hl g6 (hs g6.ok)
  exact ⟨ls, m, a, hl, k1, k2, k3⟩

theorem same_below (hp : H0 <+: H) {c : Addr} (h : c < H0.length) : H[c]? = H0[c]? := by
  obtain ⟨t, rfl⟩ := hp
  exact List.getElem?_append_left h

theorem numDt_below (hp : H0 <+: H) {c : Addr} (h : c < H0.length) : numDt H c = numDt H0 c := by
  unfold numDt; rw [same_below hp h]

theorem mixed_not_cast {items : List Addr} {d : DT} {vs : List NpVal} (h : Mixed H items) (hc : items.mapM (castItem H d) = some vs) : False := by
  obtain ⟨c, hc1, hc2⟩ := h
  exact castItems_num hc c hc1 hc2

/-- what the create functions record for a value -/
def HeadFor (env : Env) (H : Heap) (od : Option Data) (subs : Subs) : Val → Prop
  | .none => od = some (.null "V1")
  | .bool b => od = some (.scalar (.b b))
  | .int i => (63 < bitLength i ∧ od = some (.raw (asciiBytes (showInt i)))) ∨ (bitLength i ≤ 63 ∧ od = some (.scalar (.i i)))
  | .float x => od = some (.scalar (.f x))
  | .cplx x y => od = some (.scalar (.c x y))
  | .np v => od = some (.scalar v)
  | .str s => ∃ b, utf8Encode s = some b ∧ od = some (.chars b)
  | .bytes b => od = some (.chars b)
  | .arr d sh vs => od = some (.array d sh vs)
  | .seq items => (items = [] ∧ od = some (.null "int")) ∨ (items ≠ [] ∧ ∃ d vs, items.mapM (castItem H d) = some vs ∧ od = some (.vec d vs) ∧
        ∃ a ∈ items, ∃ p v, H[a]? = some p ∧ exactNum p = some v ∧ v.dt = d) ∨
      ((∃ c ∈ items, ∃ p, H[c]? = some p ∧ exactNum p = none) ∧ od = none ∧ subs = listSubs 0 items)
  | .set items => (items = [] ∧ od = some (.vec .int64 [])) ∨ (items ≠ [] ∧ ∃ d vs, items.mapM (castItem H d) = some vs ∧ od = some (.vec d vs)) ∨
      ((∃ c ∈ items, ∃ p, H[c]? = some p ∧ exactNum p = none) ∧ od = none ∧ subs = listSubs 0 items)
  | .dict es => od = none ∧ subs = dictSubs env H 0 es
  | .sarr _ [] ss => ∃ s b, ss = [s] ∧ utf8Encode s = some b ∧ od = some (.chars b)
  | .sarr _ (n :: sh) ss => (n = 0 ∧ od = some (.null "int")) ∨
      (n ≠ 0 ∧ od = none ∧ subs = nestSubs sh 0 n (ss.map fun s => .obj ⟨.str, .str s⟩))
  | .oarr [_] items => (items = [] ∧ od = some (.null "int")) ∨ (items ≠ [] ∧ ∃ d vs, items.mapM (castItem H d) = some vs ∧ od = some (.vec d vs) ∧
        ∃ a ∈ items, ∃ p v, H[a]? = some p ∧ exactNum p = some v ∧ v.dt = d) ∨
      ((∃ c ∈ items, ∃ p, H[c]? = some p ∧ exactNum p = none) ∧ od = none ∧ subs = listSubs 0 items)
  | .oarr (n :: m :: sh) items => (n = 0 ∧ od = some (.null "int")) ∨
      (n ≠ 0 ∧ od = none ∧ subs = nestSubs (m :: sh) 0 n (items.map .addr))
  | .masked d shape data mask => od = none ∧ subs = [.ok ⟨ps "data", .nest .list [] [.obj ⟨.ndarray, .arr d shape data⟩], []⟩,
        .ok ⟨ps "mask", .nest .list [] [.obj (maskObj shape mask)], []⟩]
  | .sparse d i p shape => shape.length = 2 ∧ od = none ∧ subs = [.ok ⟨ps "data", .addr d, []⟩, .ok ⟨ps "indices", .addr i, []⟩, .ok ⟨ps "indptr", .addr p, []⟩,
        .ok ⟨ps "shape", .nest .tuple [shape.length] (shape.map fun (n : Nat) => .obj ⟨.int, .int n⟩), []⟩]
  | _ => True

theorem head_for {fn : DumpFn} {o : Obj} (hfn : fn = .none → o.val = .none) {at' od subs} (h : Head env H fn o at' od subs) : HeadFor env H od subs o.val := by
  cases h with
  | none => rw [hfn rfl]; rfl
  | intBig h h' => rw [h]; exact .inl ⟨h', rfl⟩
  | int h h' => rw [h]; exact .inr ⟨h', rfl⟩
  | bool h | float h | cplx h | bytes h | np h | arr h => rw [h]; rfl
  | str h h' => rw [h]; exact ⟨_, h', rfl⟩
  | seqNil h => rw [h]; exact .inl ⟨rfl, rfl⟩
  | setNil h => rw [h]; exact .inl ⟨rfl, rfl⟩
  | seqVec h h1 h2 h3 => rw [h]; exact .inr (.inl ⟨h1, _, _, h2, rfl, h3⟩)
  | setVec h h1 h2 => rw [h]; exact .inr (.inl ⟨h1, _, _, h2, rfl⟩)
  | seqItems h _ h2 => rw [h]; exact .inr (.inr ⟨h2, rfl, rfl⟩)
  | setItems h _ h2 => rw [h]; exact .inr (.inr ⟨h2, rfl, rfl⟩)
  | dict h => rw [h]; exact ⟨rfl, rfl⟩
  | sstr h h' => rw [h]; exact ⟨_, _, rfl, h', rfl⟩
  | rowsNil h => cases h with
    | str h => rw [h]; exact .inl ⟨rfl, rfl⟩
    | obj h => rw [h]; exact .inl ⟨rfl, rfl⟩
  | rows h h1 => cases h with
    | str h => rw [h]; exact .inr ⟨h1, rfl, rfl⟩
    | obj h => rw [h]; exact .inr ⟨h1, rfl, rfl⟩
  | oseq h _ h2 => cases h with
    | one h =>
      rw [h]
      cases h2 with
      | nil e => exact .inl ⟨e, rfl⟩
      | vec e1 e2 e3 => exact .inr (.inl ⟨e1, _, _, e2, rfl, e3⟩)
      | items _ e2 => exact .inr (.inr ⟨e2, rfl, rfl⟩)
    | zero h => rw [h]; trivial
  | oone h => rw [h]; trivial
  | masked h => rw [h]; exact ⟨rfl, rfl⟩
  | sparse h h' => rw [h]; exact ⟨h', rfl, rfl⟩
  | pickled h => rw [h]; trivial

/-- the node of an object -/
theorem rep_head {base : Nat} (hn : ∀ n b, W n b → NodeOk env base H S W n b) {n : NodeId} {b : Addr} {o : Obj} (hw : W n b) (hb : H[b]? = some o)
    (hfn : (expected env o.cls).2.fn = .none → o.val = .none) : ∃ nd od subs, S[n]? = some nd ∧ HeadFor env H od subs o.val ∧
      match od with
      | some d => nd.body = .dset d
      | none => ∃ ls, nd.body = .group ls ∧ Kids base H S W ls subs := by
  obtain ⟨o', nd, od, subs, g1, g2, _, g4, g5⟩ := hn n b hw
  rw [hb] at g1; cases g1
  exact ⟨nd, od, subs, g2, head_for hfn g4, g5⟩

/-- what the proof needs to know of a value: its parts are in the heap, and its keys -/
structure Fine (env : Env) (H : Heap) (v : Val) : Prop where
  wf : ∀ c ∈ v.children, c < H.length
  keys : ∀ es, v = .dict es → ∀ k w, (k, w) ∈ es → ∀ q, H[k]? = some q → ObjOk env q ∧ ∀ u, q.cls = .user u → dictKeyTypes.contains (env.u u).name = false

theorem mixed_up (hp : H0 <+: H) {items : List Addr} (hw : ∀ c ∈ items, c < H0.length) : Mixed H items ↔ Mixed H0 items := by
  constructor
  · rintro ⟨c, h1, h2⟩; exact ⟨c, h1, by rw [← numDt_below hp (hw c h1)]; exact h2⟩
  · rintro ⟨c, h1, h2⟩; exact ⟨c, h1, by rw [numDt_below hp (hw c h1)]; exact h2⟩

/-- a member of a group node -/
theorem at_group {base : Nat} (hT : Tree S) (hn : ∀ n b, W n b → NodeOk env base H S W n b) {n : NodeId} {nd : Node} {ls : List (PyStr × NodeId)} {subs : Subs}
    (h1 : S[n]? = some nd) (h2 : nd.body = .group ls) (hk : Kids base H S W ls subs) {sb : Sub} (hs : Except.ok sb ∈ subs) :
    ∃ ls m a, S.links n = some ls ∧ Assoc.get? ls sb.name = some m ∧ SubAt base H sb.obj a ∧ W (follow S m) a := by
  have hl : S.links n = some ls := by
    unfold Store.links; rw [h1]; rcases nd with ⟨nm, at', bd⟩; simp only at h2; subst h2; rfl
  obtain ⟨m, a, k1, k2, k3⟩ := kid hT hn hl hk hs
  exact ⟨ls, m, a, hl, k1, k2, k3⟩

/-- the rows of a nested sequence -/
theorem row_at {base : Nat} {cl : Cls} {sh : List Nat} {rows : List Addr} {lss : List (List Leaf)} (h : All2 (fun r l => Nested base H cl sh l r) rows lss) :
    ∀ {i : Nat} {r : Addr}, rows[i]? = some r → Nested base H cl sh ((lss.flatten.drop (i * shSize sh)).take (shSize sh)) r := by
  induction h with
  | nil => intro i r hr; simp at hr
  | @cons r l rows lss h1 _ ih =>
    intro i r' hr
    have hl := h1.length
    cases i with
    | zero =>
      simp only [List.getElem?_cons_zero, Option.some.injEq] at hr; subst hr
      simp only [Nat.zero_mul, List.drop_zero, List.flatten_cons]
      rw [List.take_append_of_le_length (by omega), List.take_of_length_le (by omega)]
      exact h1
    | succ i =>
      simp only [List.getElem?_cons_succ] at hr
      have := ih hr
      rw [List.flatten_cons, List.drop_append, List.drop_eq_nil_of_le (by rw [hl, Nat.succ_mul]; omega), List.nil_append]
      have e : (i + 1) * shSize sh - l.length = i * shSize sh := by rw [hl, Nat.succ_mul]; omega
      rw [e]; exact this

/-- a row of one dimension less is not a number -/
theorem row_mixed {base : Nat} {sh : List Nat} {rows : List Addr} {lss : List (List Leaf)} (h : All2 (fun r l => Nested base H .list sh l r) rows lss)
    (hne : rows ≠ []) (hsh : sh ≠ [] ∨ ∀ l ∈ lss.flatten, ∃ s, l = .obj ⟨.str, .str s⟩) : ∃ c ∈ rows, numDt H c = none := by
  cases h with
  | nil => exact absurd rfl hne
  | @cons r l rows lss h1 _ =>
    refine ⟨r, by simp, ?_⟩
    cases sh with
    | nil =>
      rcases hsh with hsh | hsh
      · exact absurd rfl hsh
      · obtain ⟨x, rfl, hx⟩ := h1
        obtain ⟨s, rfl⟩ := hsh x (by simp)
        simp [numDt, hx.2, exactNum]
    | cons n sh =>
      obtain ⟨_, rows', _, hx, _⟩ := h1
      simp [numDt, hx, exactNum]

/-- a row of an array of objects with one dimension is the list of its elements -/
theorem row_elems {base : Nat} {rows items : List Addr} {lss : List (List Leaf)} (h : All2 (fun r l => Nested base H .list [] l r) rows lss)
    (hl : items.map Leaf.addr = lss.flatten) : rows = items := by
  induction h generalizing items with
  | nil => simp at hl; exact hl.symm
  | cons h _ ih =>
    obtain ⟨l, rfl, h⟩ := h
    cases items with
    | nil => simp at hl
    | cons z zs =>
      simp only [List.map_cons, List.flatten_cons, List.cons_append, List.nil_append, List.cons.injEq] at hl
      obtain ⟨rfl, hl⟩ := hl
      rw [ih hl, show _ = z from h]

theorem step (hT : Tree S) (hg : Graph P env H0) (hp : H0 <+: H) (hn : ∀ n b, W n b → NodeOk env H0.length H S W n b) {n : NodeId} {v : Val} (hr : Rep env H0.length H W n v)
    (hf : Fine env H0 v) {x : PyStr} {w : Val} (hx : Part env H0 v x w) :
    ∃ ls m, S.links n = some ls ∧ Assoc.get? ls x = some m ∧ Rep env H0.length H W (follow S m) w := by
  have old : ∀ {c : Addr} {o : Obj} {k}, H0[c]? = some o → W k c → Rep env H0.length H W k o.val := fun {c o k} h1 h2 =>
    .inl ⟨c, o, h2, by rw [same_below hp (lt_of_getElem? h1)]; exact h1, rfl, fun h => by rw [none_obj (hg.cls c o h1).2 h]⟩
  have go : ∀ {v w x}, Fine env H0 v → Part env H0 v x w → (∃ b o, W n b ∧ H[b]? = some o ∧ o.val = v ∧ ((expected env o.cls).2.fn = .none → o.val = .none)) →
      ∃ ls m, S.links n = some ls ∧ Assoc.get? ls x = some m ∧ Rep env H0.length H W (follow S m) w := by
    clear hr hf hx
    rintro v w x hf hx ⟨b, o, h1, h2, rfl, h4⟩
    obtain ⟨nd, od, subs, g1, g2, g3⟩ := rep_head hn h1 h2 h4
    obtain ⟨cl, v⟩ := o
    simp only at hx hf g2
    have list : ∀ {items : List Addr} {i : Nat} {b : Addr} {o : Obj}, od = none → subs = listSubs 0 items → items[i]? = some b → H0[b]? = some o →
        ∃ ls m, S.links n = some ls ∧ Assoc.get? ls (dataName i) = some m ∧ Rep env H0.length H W (follow S m) o.val := by
      rintro items i b o rfl rfl hi ho
      obtain ⟨ls, g3, g4⟩ := g3
      have hs : Except.ok (⟨dataName (0 + i), .addr b, [("item_index", .int (0 + i : Nat))]⟩ : Sub) ∈ listSubs 0 items := List.mem_of_getElem? (listSubs_at hi 0)
      obtain ⟨ls', m, a, k1, k2, k3, k4⟩ := at_group hT hn g1 g3 g4 hs
      rw [Nat.zero_add] at k2
      simp only [SubAt] at k3; subst k3
      exact ⟨ls', m, k1, k2, old ho k4⟩
    have addr : ∀ {name : PyStr} {d : Addr} {o : Obj}, od = none → Except.ok (⟨name, .addr d, []⟩ : Sub) ∈ subs → H0[d]? = some o →
        ∃ ls m, S.links n = some ls ∧ Assoc.get? ls name = some m ∧ Rep env H0.length H W (follow S m) o.val := by
      rintro name d o rfl hs ho
      obtain ⟨ls, g3, g4⟩ := g3
      obtain ⟨ls', m, a, k1, k2, k3, k4⟩ := at_group hT hn g1 g3 g4 hs
      simp only [SubAt] at k3; subst k3
      exact ⟨ls', m, k1, k2, old ho k4⟩
    have leaf : ∀ {name : PyStr} {o : Obj}, od = none → Except.ok (⟨name, .nest .list [] [.obj o], []⟩ : Sub) ∈ subs → ObjOk env o →
        ∃ ls m, S.links n = some ls ∧ Assoc.get? ls name = some m ∧ Rep env H0.length H W (follow S m) o.val := by
      rintro name o rfl hs ho
      obtain ⟨ls, g3, g4⟩ := g3
      obtain ⟨ls', m, a, k1, k2, ⟨l, k3, k5⟩, k4⟩ := at_group hT hn g1 g3 g4 hs
      simp only [List.cons.injEq, and_true] at k3; subst k3
      exact ⟨ls', m, k1, k2, .inl ⟨a, o, k4, k5.2, rfl, fun h => by rw [none_obj ho h]⟩⟩
    cases hx with
    | item hm hi ho =>
      rcases g2 with ⟨rfl, _⟩ | ⟨_, d, vs, g2, _⟩ | ⟨_, g2, g2'⟩
      · simp at hi
      · exact (mixed_not_cast ((mixed_up hp hf.wf).2 hm) g2).elim
      · exact list g2 g2' hi ho
    | elem hm hi ho =>
      rcases g2 with ⟨rfl, _⟩ | ⟨_, d, vs, g2, _⟩ | ⟨_, g2, g2'⟩
      · simp at hi
      · exact (mixed_not_cast ((mixed_up hp hf.wf).2 hm) g2).elim
      · exact list g2 g2' hi ho
    | oitem hm hi ho =>
      rcases g2 with ⟨rfl, _⟩ | ⟨_, d, vs, g2, _⟩ | ⟨_, g2, g2'⟩
      · simp at hi
      · exact (mixed_not_cast ((mixed_up hp hf.wf).2 hm) g2).elim
      · exact list g2 g2' hi ho
    | @row w n sh ss i hi =>
      rcases g2 with ⟨rfl, _⟩ | ⟨_, rfl, rfl⟩
      · omega
      · obtain ⟨ls, g3, g4⟩ := g3
        obtain ⟨ls', m, a, k1, k2, k3, k4⟩ := at_group hT hn g1 g3 g4 (List.mem_of_getElem? (nestSubs_get hi))
        rw [Nat.zero_add] at k2
        refine ⟨ls', m, k1, k2, .inr (.inl ⟨a, sh, _, k4, k3, .inl ⟨w, _, rfl, ?_⟩⟩)⟩
        rw [List.map_take, List.map_drop]
    | @orow n k sh items i hi =>
      rcases g2 with ⟨rfl, _⟩ | ⟨_, rfl, rfl⟩
      · omega
      · obtain ⟨ls, g3, g4⟩ := g3
        obtain ⟨ls', m, a, k1, k2, k3, k4⟩ := at_group hT hn g1 g3 g4 (List.mem_of_getElem? (nestSubs_get hi))
        rw [Nat.zero_add] at k2
        refine ⟨ls', m, k1, k2, .inr (.inl ⟨a, k :: sh, _, k4, k3, .inr ⟨_, by simp, rfl, ?_⟩⟩)⟩
        rw [List.map_take, List.map_drop]
    | @value es k v q o _ he hq hk ho =>
      obtain ⟨rfl, rfl⟩ := g2
      obtain ⟨ls, g3, g4⟩ := g3
      obtain ⟨j, hj⟩ := dictSubs_of_mem (env := env) (H := H) he 0
      obtain ⟨sb, hsb⟩ := g4.ok _ hj
      have hsb' := hsb
      unfold dictSub at hsb'
      rw [same_below hp (lt_of_getElem? hq), hq] at hsb'
      simp only at hsb'
      cases hks : keySlot env q with
      | error e => rw [hks] at hsb'; simp at hsb'
      | ok r =>
        obtain ⟨t, rfl⟩ := keySlot_name hk hks
        rw [hks] at hsb'
        simp only [Except.ok.injEq] at hsb'
        subst hsb'
        rw [hsb] at hj
        obtain ⟨ls', m, a, k1, k2, k3, k4⟩ := at_group hT hn g1 g3 g4 hj
        simp only [SubAt] at k3; subst k3
        exact ⟨ls', m, k1, k2, old ho k4⟩
    | @entry es i k v q he hq hk =>
      obtain ⟨rfl, rfl⟩ := g2
      obtain ⟨ls, g3, g4⟩ := g3
      have hj := List.mem_of_getElem? (dictSubs_at (env := env) (H := H) he 0)
      have : dictSub env H (0 + i) k v = .ok ⟨dataName i, .pair k v, [("key_idx", .int i), ("key_base_type", .bytes "key_value")]⟩ := by
        unfold dictSub
        rw [same_below hp (lt_of_getElem? hq), hq]
        simp only [keySlot_nameless hk, Nat.zero_add]
      rw [this] at hj
      obtain ⟨ls', m, a, k1, k2, k3, k4⟩ := at_group hT hn g1 g3 g4 hj
      exact ⟨ls', m, k1, k2, .inl ⟨a, _, k4, k3.2, rfl, fun h => by cases none_obj (env := env) (o := ⟨.tuple, .seq [k, v]⟩) rfl h⟩⟩
    | @data d sh vs _ => exact leaf (name := ps "data") (o := ⟨.ndarray, .arr d sh vs⟩) g2.1 (by rw [g2.2]; simp) rfl
    | @mask _ sh _ m => exact leaf (name := ps "mask") (o := ⟨.ndarray, .arr .bool sh (m.map .b)⟩) g2.1 (by rw [g2.2]; simp [maskObj]) rfl
    | nomask => exact leaf (name := ps "mask") (o := ⟨.npBool, .np (.b false)⟩) g2.1 (by rw [g2.2]; simp [maskObj]) rfl
    | @values d _ _ _ _ ho => exact addr (name := ps "data") (d := d) g2.2.1 (by rw [g2.2.2]; simp) ho
    | @indices _ i _ _ _ ho => exact addr (name := ps "indices") (d := i) g2.2.1 (by rw [g2.2.2]; simp) ho
    | @indptr _ _ p _ _ ho => exact addr (name := ps "indptr") (d := p) g2.2.1 (by rw [g2.2.2]; simp) ho
    | @shape d i p sh =>
      obtain ⟨hl, rfl, rfl⟩ := g2
      obtain ⟨ls, g3, g4⟩ := g3
      obtain ⟨ls', m, a, k1, k2, k3, k4⟩ := at_group (sb := ⟨ps "shape", .nest .tuple [sh.length] (sh.map fun (n : Nat) => .obj ⟨.int, .int n⟩), []⟩) hT hn g1 g3 g4 (by simp)
      refine ⟨ls', m, k1, k2, .inr (.inr ?_)⟩
      obtain ⟨_, rows, lss, q1, q2, q3, q4⟩ := k3
      refine ⟨a, rows, sh, k4, q1, ?_, ?_, rfl⟩
      · rintro rfl; simp at hl
      · clear q1 q2 k4 k2 k1 hl g3 g4 hf
        generalize hz : sh = zs at q3
        clear hz
        induction q4 generalizing zs with
        | nil => simp at q3; subst q3; exact .nil
        | cons h _ ih =>
          obtain ⟨l, rfl, h⟩ := h
          cases zs with
          | nil => simp at q3
          | cons z zs =>
            simp only [List.map_cons, List.flatten_cons, List.cons_append, List.nil_append, List.cons.injEq] at q3
            obtain ⟨rfl, q3⟩ := q3
            exact .cons h.2 (ih zs q3)
  have none_list : ∀ {rows : List Addr}, (expected env (Obj.mk .list (.seq rows)).cls).2.fn = .none → (Obj.mk .list (.seq rows)).val = .none := fun h => by
    cases none_obj (env := env) (o := ⟨.list, .seq _⟩) rfl h
  rcases hr with hr | ⟨b, sh, ls, h1, h2, hv⟩ | ⟨_, _, _, _, _, _, _, rfl⟩
  · exact go hf hx hr
  · cases sh with
    | nil =>
      rcases hv with ⟨w, ss, rfl, rfl⟩ | ⟨items, h, _⟩
      · cases hx
      · exact absurd rfl h
    | cons k sh =>
      obtain ⟨h0, rows, lss, q1, q2, q3, q4⟩ := h2
      obtain ⟨nd, od, subs, g1, g2, g3⟩ := rep_head hn h1 q1 none_list
      have list : ∀ {i : Nat}, i < k → (sh ≠ [] ∨ ∀ l ∈ lss.flatten, ∃ s, l = .obj ⟨.str, .str s⟩) →
          ∃ ls' m b, S.links n = some ls' ∧ Assoc.get? ls' (dataName i) = some m ∧ W (follow S m) b ∧
            Nested H0.length H .list sh ((ls.drop (i * shSize sh)).take (shSize sh)) b := by
        intro i hi hsh
        obtain ⟨r, hr⟩ : ∃ r, rows[i]? = some r := ⟨_, List.getElem?_eq_getElem (q2 ▸ hi)⟩
        rcases g2 with ⟨rfl, _⟩ | ⟨hne, d, vs, g2, _⟩ | ⟨_, rfl, rfl⟩
        · simp at hr
        · exact (mixed_not_cast (row_mixed q4 hne hsh) g2).elim
        · obtain ⟨ls, g3, g4⟩ := g3
          obtain ⟨ls', m, a, k1, k2, k3, k4⟩ := at_group hT hn g1 g3 g4 (List.mem_of_getElem? (listSubs_at hr 0))
          rw [Nat.zero_add] at k2
          simp only [SubAt] at k3; subst k3
          exact ⟨ls', m, _, k1, k2, k4, q3 ▸ row_at q4 hr⟩
      rcases hv with ⟨w, ss, rfl, rfl⟩ | ⟨items, _, rfl, rfl⟩
      · cases hx with
        | row hi =>
          obtain ⟨ls', m, c, k1, k2, k3, k4⟩ := list hi (.inr fun l hl => by
            rw [← q3] at hl
            obtain ⟨s, _, rfl⟩ := List.mem_map.1 hl
            exact ⟨s, rfl⟩)
          refine ⟨ls', m, k1, k2, .inr (.inl ⟨c, sh, _, k3, k4, .inl ⟨w, _, rfl, ?_⟩⟩)⟩
          rw [List.map_take, List.map_drop]
      · cases hx with
        | oitem hm hi ho =>
          have := row_elems q4 q3
          subst this
          exact go (v := .seq rows) ⟨hf.wf, fun es he => by simp at he⟩ (.item hm hi ho) ⟨b, _, h1, q1, rfl, none_list⟩
        | orow hi =>
          obtain ⟨ls', m, c, k1, k2, k3, k4⟩ := list hi (.inl (by simp))
          refine ⟨ls', m, k1, k2, .inr (.inl ⟨c, _, _, k3, k4, .inr ⟨_, by simp, rfl, ?_⟩⟩)⟩
          rw [List.map_take, List.map_drop]
  · cases hx

theorem fine_obj (hg : Graph P env H) {a : Addr} {o : Obj} (h : H[a]? = some o) : Fine env H o.val :=
  ⟨hg.wf a o h, fun es he k w hk q hq => ⟨(hg.cls k q hq).2, hg.keys a o es h he k w hk q hq⟩⟩

theorem fine_part (hg : Graph P env H) {v w : Val} {x : PyStr} (hf : Fine env H v) (h : Part env H v x w) : Fine env H w := by
  have triv : ∀ {w : Val}, w.children = [] → (∀ es, w ≠ .dict es) → Fine env H w := fun h1 h2 =>
    ⟨by rw [h1]; simp, fun es he => absurd he (h2 es)⟩
  cases h with
  | row => exact triv rfl (by simp)
  | orow =>
    refine ⟨fun c hc => hf.wf c ?_, fun es he => by simp at he⟩
    simp only [Val.children] at hc ⊢
    exact List.mem_of_mem_drop (List.mem_of_mem_take hc)
  | item _ _ ho | elem _ _ ho | oitem _ _ ho | value _ _ _ ho | values ho | indices ho | indptr ho => exact fine_obj hg ho
  | @entry es i k v q he _ _ =>
    refine ⟨fun c hc => hf.wf c ?_, fun es he => by simp at he⟩
    simp only [Val.children, List.mem_cons, List.not_mem_nil, or_false] at hc
    simp only [Val.children, List.mem_flatMap]
    exact ⟨(k, v), List.mem_of_getElem? he, by simpa using hc⟩
  | data | mask | nomask | shape => exact triv rfl (by simp)

theorem kids_names {base : Nat} {ls : List (PyStr × NodeId)} {subs : Subs} (h : Kids base H S W ls subs) :
    ls.map (fun e => some e.1) = subs.map fun x => match x with | .ok sb => some sb.name | .error _ => none := by
  induction h with
  | nil => rfl
  | cons _ _ _ _ ih => simp [ih]

theorem names_of_kids {base : Nat} {ls : List (PyStr × NodeId)} {subs : Subs} (h : Kids base H S W ls subs) {names : List PyStr}
    (hn : (subs.map fun x => match x with | .ok sb => some sb.name | .error _ => none) = names.map some) : ls.map Prod.fst = names := by
  have := kids_names h
  rw [hn] at this
  have h2 : (ls.map Prod.fst).map some = names.map some := by rw [← this, List.map_map]; rfl
  exact (List.map_inj_right (fun a b h => Option.some.inj h)).1 h2

theorem listSubs_names (items : List Addr) : ∀ i, ((listSubs i items).map fun x => match x with | .ok sb => some sb.name | .error _ => none) =
    ((List.range' i items.length).map dataName).map some := by
  induction items with
  | nil => intro i; rfl
  | cons a as ih => intro i; simp [listSubs, List.range'_succ, ih (i + 1)]

theorem is_num (hp : H0 <+: H) {d : DT} {items : List Addr} {vs : List NpVal} (hw : ∀ c ∈ items, c < H0.length) (h : items.mapM (castItem H d) = some vs) :
    All2 (IsNum H0 d) vs items := by
  induction items generalizing vs with
  | nil => simp at h; subst h; exact .nil
  | cons c cs ih =>
    simp only [List.mapM_cons, Option.bind_eq_bind, Option.bind_eq_some_iff, Option.pure_def] at h
    obtain ⟨w, h1, ws, h2, h3⟩ := h
    simp only [Option.some.injEq] at h3; subst h3
    refine .cons ?_ (ih (fun c hc => hw c (by simp [hc])) h2)
    unfold castItem at h1
    rw [same_below hp (hw c (by simp))] at h1
    cases ho : H0[c]? with
    | none => rw [ho] at h1; simp at h1
    | some o =>
      rw [ho] at h1
      simp only [Option.bind_eq_some_iff] at h1
      obtain ⟨v, k1, k2⟩ := h1
      exact ⟨o, v, ho, k1, (castNum_native k2).2, fun e => castNum_same k2 e.symm, fun hfit => (castNum_exact k2 fun x hx hne => hfit x hx (by
        subst hx
        cases d <;> first | (simp [castNum] at k2; done) | simp_all [NpVal.dt])).1⟩

theorem entry_names (hp : H0 <+: H) {base : Nat} {es : List (Addr × Addr)} (hw : ∀ e ∈ es, e.1 < H0.length)
    (hk : ∀ k w, (k, w) ∈ es → ∀ q, H0[k]? = some q → ObjOk env q ∧ ∀ u, q.cls = .user u → dictKeyTypes.contains (env.u u).name = false) :
    ∀ {i : Nat} {ls : List (PyStr × NodeId)}, Kids base H S W ls (dictSubs env H i es) → All2 (EntryName env H0) (ls.map Prod.fst) (es.zipIdx i) := by
  induction es with
  | nil => intro i ls h; cases h; exact .nil
  | cons e es ih =>
    intro i ls h
    obtain ⟨k, v⟩ := e
    simp only [dictSubs] at h
    generalize hd : dictSub env H i k v = r at h
    cases h with
    | @cons sb a m ls subs h1 h2 h3 h4 =>
      refine .cons ?_ (ih (fun e he => hw e (by simp [he])) (fun k w h => hk k w (by simp [h])) h4)
      have hlt := hw (k, v) (by simp)
      simp only at hlt
      cases hq : H0[k]? with
      | none => exact absurd hq (by simp [List.getElem?_eq_getElem hlt])
      | some q =>
        refine ⟨q, hq, ?_⟩
        unfold dictSub at hd
        rw [same_below hp hlt, hq] at hd
        simp only at hd
        cases hks : keySlot env q with
        | error e => rw [hks] at hd; simp at hd
        | ok r =>
          rw [hks] at hd
          cases r with
          | none => simp only [Except.ok.injEq] at hd; subst hd; exact .inr rfl
          | some nt =>
            obtain ⟨nm, t⟩ := nt
            simp only [Except.ok.injEq] at hd; subst hd
            obtain ⟨q1, q2⟩ := hk k v (by simp) q hq
            exact .inl (name_keySlot q2 q1 hks)

theorem all2_length {α β : Type} {r : α → β → Prop} {xs : List α} {ys : List β} (h : All2 r xs ys) : xs.length = ys.length := by
  induction h with
  | nil => rfl
  | cons _ _ ih => simp [ih]

theorem shows_big {i : Int} (h : 63 < bitLength i) : Shows env H (.int i) (.dset (.raw (asciiBytes (showInt i)))) := by
  refine .bigInt ?_ rfl
  apply Nat.le_of_not_lt
  intro h'
  exact absurd ((bitLength_le_63 i).2 h') (Nat.not_le.2 h)

theorem shows_small {i : Int} (h : bitLength i ≤ 63) : Shows env H (.int i) (.dset (.scalar (.i i))) :=
  .int ((bitLength_le_63 i).1 h) rfl

theorem shape_item {x : Addr} {o : Obj} {v w : NpVal} {d : DT} (h : H[x]? = some o) (ho : exactNum o = some v) (hd : d = v.dt)
    (hw : castItem H d x = some w) : w = v := by
  simp only [castItem, h, ho, Option.bind_some] at hw
  exact castNum_same hw hd

theorem shape_items {items sh : List Nat} {vs : List NpVal} (h3 : All2 (fun i (x : Nat) => H[i]? = some ⟨.int, .int x⟩) items sh)
    (g2 : items.mapM (castItem H .int64) = some vs) : vs = sh.map fun (n : Nat) => .i n := by
  induction h3 generalizing vs with
  | nil => simp at g2; exact g2
  | @cons x y xs ys h _ ih =>
    simp only [List.mapM_cons, Option.bind_eq_bind, Option.bind_eq_some_iff, Option.pure_def, Option.some.injEq] at g2
    obtain ⟨w, k1, ws, k2, rfl⟩ := g2
    rw [ih k2]
    rw [shape_item h rfl rfl k1, List.map_cons]

theorem shows_shape {base : Nat} (hn : ∀ n b, W n b → NodeOk env base H S W n b) {n : NodeId} {b : Addr} {items sh : List Nat} (h1 : W n b)
    (h2 : H[b]? = some ⟨.tuple, .seq items⟩) (hne : sh ≠ []) (h3 : All2 (fun i (x : Nat) => H[i]? = some ⟨.int, .int x⟩) items sh) :
    ∃ nd, S[n]? = some nd ∧ Shows env H0 (.arr .int64 [sh.length] (sh.map fun (n : Nat) => .i n)) nd.body := by
  obtain ⟨nd, od, subs, g1, g2, g3⟩ := rep_head hn h1 h2 (fun h => by cases none_obj (env := env) (o := ⟨.tuple, .seq items⟩) rfl h)
  refine ⟨nd, g1, ?_⟩
  have num : ∀ {a : Addr} {p : Obj}, a ∈ items → H[a]? = some p → ∃ x, exactNum p = some (.i x) := by
    intro a p ha hp
    obtain ⟨x, _, hx⟩ := h3.partner ha
    rw [hx] at hp; cases hp
    exact ⟨_, rfl⟩
  rcases g2 with ⟨rfl, rfl⟩ | ⟨hne, d, vs, g2, rfl, a, ha, p, v, e1, e2, e3⟩ | ⟨⟨c, hc1, p, e1, e2⟩, g4, g5⟩
  · cases h3; exact absurd rfl hne
  · rw [g3]
    obtain ⟨x, hx⟩ := num ha e1
    rw [hx] at e2; cases e2
    have hd : d = .int64 := e3.symm
    subst hd
    rw [shape_items h3 g2]
    exact .arr (by simp [seen])
  · obtain ⟨x, hx⟩ := num hc1 e1
    rw [hx] at e2; cases e2

theorem nestSubs_names (sh : List Nat) (n : Nat) : ∀ i ls, ((nestSubs sh i n ls).map fun x => match x with | .ok sb => some sb.name | .error _ => none) =
    ((List.range' i n).map dataName).map some := by
  induction n with
  | zero => intro i ls; rfl
  | succ n ih => intro i ls; simp [nestSubs, List.range'_succ, ih]

theorem shows_obj (hp : H0 <+: H) (hn : ∀ n b, W n b → NodeOk env H0.length H S W n b) {n : NodeId} {v : Val}
    (hr : ∃ b o, W n b ∧ H[b]? = some o ∧ o.val = v ∧ ((expected env o.cls).2.fn = .none → o.val = .none))
    (hf : Fine env H0 v) (hc : Covered v = true) : ∃ nd, S[n]? = some nd ∧ Shows env H0 v nd.body := by
  obtain ⟨b, o, h1, h2, rfl, h4⟩ := hr
  · obtain ⟨nd, od, subs, g1, g2, g3⟩ := rep_head hn h1 h2 h4
    refine ⟨nd, g1, ?_⟩
    obtain ⟨cl, v⟩ := o
    simp only at hf hc g2 ⊢
    clear h4 h2
    have list : ∀ {items : List Addr}, od = none → subs = listSubs 0 items → ∃ ls, nd.body = .group ls ∧ ls.map Prod.fst = (List.range items.length).map dataName := by
      rintro items rfl rfl
      obtain ⟨ls, g3, g4⟩ := g3
      exact ⟨ls, g3, by rw [names_of_kids g4 (listSubs_names items 0), List.range_eq_range']⟩
    have vec : ∀ {items : List Addr} {d vs}, (∀ c ∈ items, c < H0.length) → items.mapM (castItem H d) = some vs → od = some (.vec d vs) →
        ∃ d', nd.body = .dset d' ∧ seen d' = some (.numbers d [items.length] vs) ∧ All2 (IsNum H0 d) vs items := by
      rintro items d vs hw hm rfl
      have := is_num hp hw hm
      exact ⟨_, g3, by simp [seen, all2_length this], this⟩
    have mix : ∀ {items : List Addr}, (∀ c ∈ items, c < H0.length) → (∃ c ∈ items, ∃ p, H[c]? = some p ∧ exactNum p = none) → Mixed H0 items := by
      rintro items hw ⟨c, h1, p, h2, h3⟩
      exact (mixed_up hp hw).1 ⟨c, h1, by simp [numDt, h2, h3]⟩
    cases v with
    | none => simp only [HeadFor] at g2; subst g2; rw [g3]; exact .none rfl
    | bool b => simp only [HeadFor] at g2; subst g2; rw [g3]; exact .bool rfl
    | float x => simp only [HeadFor] at g2; subst g2; rw [g3]; exact .float rfl
    | cplx x y => simp only [HeadFor] at g2; subst g2; rw [g3]; exact .cplx rfl
    | np v => simp only [HeadFor] at g2; subst g2; rw [g3]; exact .np rfl
    | bytes b => simp only [HeadFor] at g2; subst g2; rw [g3]; exact .bytes rfl
    | arr t sh vs => simp only [HeadFor] at g2; subst g2; rw [g3]; exact .arr rfl
    | str s => obtain ⟨b, g2, rfl⟩ := g2; rw [g3]; exact .str g2 rfl
    | int i =>
      rcases g2 with ⟨h, rfl⟩ | ⟨h, rfl⟩
      · rw [g3]; exact shows_big h
      · rw [g3]; exact shows_small h
    | seq items =>
      rcases g2 with ⟨rfl, rfl⟩ | ⟨hne, d, vs, g2, g4, _⟩ | ⟨g2, g4, g5⟩
      · rw [g3]; exact .noItems rfl
      · obtain ⟨d', k1, k2, k3⟩ := vec hf.wf g2 g4
        rw [k1]; exact .numbers hne k3 k2
      · obtain ⟨ls, k1, k2⟩ := list g4 g5
        rw [k1]; exact .seq (mix hf.wf g2) k2
    | set items =>
      rcases g2 with ⟨rfl, rfl⟩ | ⟨hne, d, vs, g2, g4⟩ | ⟨g2, g4, g5⟩
      · rw [g3]; exact .noElems rfl
      · obtain ⟨d', k1, k2, k3⟩ := vec hf.wf g2 g4
        rw [k1]; exact .elemNumbers hne k3 k2
      · obtain ⟨ls, k1, k2⟩ := list g4 g5
        rw [k1]; exact .set (mix hf.wf g2) k2
    | dict es =>
      obtain ⟨rfl, rfl⟩ := g2
      obtain ⟨ls, g3, g4⟩ := g3
      rw [g3]
      refine .dict (entry_names hp (fun e he => hf.wf e.1 ?_) (hf.keys es rfl) g4)
      simp only [Val.children, List.mem_flatMap]
      exact ⟨e, he, by simp⟩
    | masked d sh vs m =>
      obtain ⟨rfl, rfl⟩ := g2
      obtain ⟨ls, g3, g4⟩ := g3
      rw [g3]
      exact .masked (names_of_kids g4 (by simp))
    | sparse d i p sh =>
      obtain ⟨_, rfl, rfl⟩ := g2
      obtain ⟨ls, g3, g4⟩ := g3
      rw [g3]
      exact .sparse (names_of_kids g4 (by simp))
    | sarr w sh ss =>
      cases sh with
      | nil => obtain ⟨s, b, rfl, g2, rfl⟩ := g2; rw [g3]; exact .string g2 rfl
      | cons n sh =>
        rcases g2 with ⟨rfl, rfl⟩ | ⟨hne, rfl, rfl⟩
        · rw [g3]; exact .noRows rfl
        · obtain ⟨ls, g3, g4⟩ := g3
          rw [g3]; exact .rows hne (by rw [names_of_kids g4 (nestSubs_names sh n 0 _), List.range_eq_range'])
    | oarr sh items =>
      match sh, g2, hc with
      | [_], g2, _ =>
        refine .oarr ?_
        rcases g2 with ⟨rfl, rfl⟩ | ⟨hne, d, vs, g2, g4, _⟩ | ⟨g2, g4, g5⟩
        · rw [g3]; exact .noItems rfl
        · obtain ⟨d', k1, k2, k3⟩ := vec hf.wf g2 g4
          rw [k1]; exact .numbers hne k3 k2
        · obtain ⟨ls, k1, k2⟩ := list g4 g5
          rw [k1]; exact .seq (mix hf.wf g2) k2
      | n :: k :: sh, g2, _ =>
        rcases g2 with ⟨rfl, rfl⟩ | ⟨hne, rfl, rfl⟩
        · rw [g3]; exact .noObjRows rfl
        · obtain ⟨ls, g3, g4⟩ := g3
          rw [g3]; exact .objRows hne (by rw [names_of_kids g4 (nestSubs_names (k :: sh) n 0 _), List.range_eq_range'])
    | _ => simp [Covered] at hc

theorem shows (hp : H0 <+: H) (hn : ∀ n b, W n b → NodeOk env H0.length H S W n b) {n : NodeId} {v : Val} (hr : Rep env H0.length H W n v)
    (hf : Fine env H0 v) (hc : Covered v = true) : ∃ nd, S[n]? = some nd ∧ Shows env H0 v nd.body := by
  have none_list : ∀ {rows : List Addr}, (expected env (Obj.mk .list (.seq rows)).cls).2.fn = .none → (Obj.mk .list (.seq rows)).val = .none := fun h => by
    cases none_obj (env := env) (o := ⟨.list, .seq _⟩) rfl h
  rcases hr with hr | ⟨b, sh, ls, h1, h2, hv⟩ | ⟨b, items, sh, h1, h2, hne, h3, rfl⟩
  · exact shows_obj hp hn hr hf hc
  · cases sh with
    | nil =>
      rcases hv with ⟨w, ss, rfl, rfl⟩ | ⟨items, h, _⟩
      · obtain ⟨l, q1, q2⟩ := h2
        obtain ⟨s, rfl, rfl⟩ : ∃ s, ss = [s] ∧ l = .obj ⟨.str, .str s⟩ := by
          match ss, q1 with
          | [s], q1 => simp only [List.map_cons, List.map_nil, List.cons.injEq, and_true] at q1; exact ⟨s, rfl, q1.symm⟩
        obtain ⟨nd, od, subs, g1, g2, g3⟩ := rep_head hn h1 q2.2 (fun h => by cases none_obj (env := env) (o := ⟨.str, .str _⟩) rfl h)
        obtain ⟨b, g2, rfl⟩ := g2
        exact ⟨nd, g1, by rw [g3]; exact .string g2 rfl⟩
      · exact absurd rfl h
    | cons k sh =>
      obtain ⟨h0, rows, lss, q1, q2, q3, q4⟩ := h2
      have list : (sh ≠ [] ∨ ∀ l ∈ lss.flatten, ∃ s, l = .obj ⟨.str, .str s⟩) → ∃ nd, S[n]? = some nd ∧
          ((k = 0 ∧ ∃ d, nd.body = .dset d ∧ seen d = some .nothing) ∨
            (k ≠ 0 ∧ ∃ ls, nd.body = .group ls ∧ ls.map Prod.fst = (List.range k).map dataName)) := by
        intro hsh
        obtain ⟨nd, od, subs, g1, g2, g3⟩ := rep_head hn h1 q1 none_list
        refine ⟨nd, g1, ?_⟩
        rcases g2 with ⟨rfl, rfl⟩ | ⟨hne, d, vs, g2, _⟩ | ⟨⟨c, hc, _⟩, rfl, rfl⟩
        · exact .inl ⟨q2.symm, _, g3, rfl⟩
        · exact (mixed_not_cast (row_mixed q4 hne hsh) g2).elim
        · obtain ⟨ls, g3, g4⟩ := g3
          refine .inr ⟨?_, ls, g3, by rw [names_of_kids g4 (listSubs_names rows 0), List.range_eq_range', q2]⟩
          rintro rfl
          rw [List.length_eq_zero_iff] at q2
          subst q2; cases hc
      rcases hv with ⟨w, ss, rfl, rfl⟩ | ⟨items, _, rfl, rfl⟩
      · obtain ⟨nd, g1, g2⟩ := list (.inr fun l hl => by
          rw [← q3] at hl
          obtain ⟨s, _, rfl⟩ := List.mem_map.1 hl
          exact ⟨s, rfl⟩)
        refine ⟨nd, g1, ?_⟩
        rcases g2 with ⟨rfl, d, g2, g3⟩ | ⟨hne, ls, g2, g3⟩
        · rw [g2]; exact .noRows g3
        · rw [g2]; exact .rows hne g3
      · cases sh with
        | nil =>
          have := row_elems q4 q3
          subst this
          obtain ⟨nd, g1, g2⟩ := shows_obj (v := .seq rows) hp hn ⟨b, _, h1, q1, rfl, none_list⟩ ⟨hf.wf, fun es he => by simp at he⟩ rfl
          exact ⟨nd, g1, .oarr g2⟩
        | cons m sh =>
          obtain ⟨nd, g1, g2⟩ := list (.inl (by simp))
          refine ⟨nd, g1, ?_⟩
          rcases g2 with ⟨rfl, d, g2, g3⟩ | ⟨hne, ls, g2, g3⟩
          · rw [g2]; exact .noObjRows g3
          · rw [g2]; exact .objRows hne g3
  · exact shows_shape hn h1 h2 hne h3

/-- the object at the end of a way is the one shown at the end of the same way in the file -/
theorem ends (hT : Tree S) (hg : Graph P env H0) (hp : H0 <+: H) (hn : ∀ n b, W n b → NodeOk env H0.length H S W n b) {v w : Val} {xs : List PyStr}
    (hpath : Path env H0 v xs w) : ∀ {n : NodeId}, Rep env H0.length H W n v → Fine env H0 v → Covered w = true →
    ∃ m nd, walk S n xs = some m ∧ S[m]? = some nd ∧ Shows env H0 w nd.body := by
  induction hpath with
  | nil =>
    intro n hr hf hc
    obtain ⟨nd, h1, h2⟩ := shows hp hn hr hf hc
    exact ⟨n, nd, rfl, h1, h2⟩
  | cons hx _ ih =>
    intro n hr hf hc
    obtain ⟨ls, m, h1, h2, h3⟩ := step hT hg hp hn hr hf hx
    obtain ⟨m', nd, h4, h5⟩ := ih h3 (fine_part hg hf hx) hc
    exact ⟨m', nd, by simp only [walk, h1, h2]; exact h4, h5⟩

end Plain

open Plain

theorem Stored.plain {env : Env} {S : Store} {p : List PyStr} {H : Heap} {a : Addr} {o : Obj} {names : List PyStr} {v : Val} (h : Stored env S p H a)
    (hT : Tree S) (hg : Graph P env H) (ho : H[a]? = some o) (hp : Plain.Path env H o.val names v) (hc : Covered v = true) :
    ∃ n nd, walk S 0 (p ++ dataName0 :: names) = some n ∧ S[n]? = some nd ∧ Shows env H v nd.body := by
  obtain ⟨H', W, g, T, m, N, M, hs⟩ := h
  obtain ⟨ls, h1, h2, _⟩ := hs.data
  have hw := follow_child hs.dumped.nodes hs.dumped.root
  have hr : Rep env H.length H' W (follow S m) o.val := .inl ⟨a, o, hw, by rw [same_below hs.dumped.pre (lt_of_getElem? ho)]; exact ho, rfl,
    fun h => by rw [none_obj (hg.cls a o ho).2 h]⟩
  obtain ⟨n, nd, k1, k2, k3⟩ := ends hT hg hs.dumped.pre hs.dumped.nodes hp hr (fine_obj hg ho) hc
  refine ⟨n, nd, ?_, k2, k3⟩
  rw [walk_resolve ⟨ls, h1⟩ hs.res]
  simp only [walk, h1, h2]
  exact k1

/-- **C61.**  After `dump` returned and any further calls whose paths do not lead into the dump, the way down from the dumped object to any part
of it leads by the names of the parts through the file, and the node there shows the part. -/
theorem C61_readable {a : DumpArgs} {s s' : Session} {o : Obj} {names : List PyStr} {v : Val} (hE : EnvOk P a.env) (hP : ProtOk P a.env) (hf : FileOk P s)
    (hg : Graph P a.env a.heap) (ho : OptsOk a s.store) (h : dumpTop a s = (.ok (), s')) (hobj : a.heap[a.obj]? = some o)
    {ops : List Op} (hok : ∀ o ∈ ops, o.ok P) (hav : ∀ o ∈ ops, ∀ q, o.path = some q → Avoids a.path q)
    (hp : Plain.Path a.env a.heap o.val names v) (hc : Covered v = true) :
    ∃ n nd, walk (runOps ops s').store 0 (a.path ++ dataName0 :: names) = some n ∧ (runOps ops s').store[n]? = some nd ∧ Shows a.env a.heap v nd.body := by
  have hs := dumpTop_stored hE hP hf.reg hf.tree (fun x o hx => (hg.cls x o hx).1) ho h
  have hf' : FileOk P s' := by
    have := (Op.chg (o := .dump a) ⟨hE, hP⟩ hf).1
    simpa only [Op.run, h] using this
  exact (hs.run hok hf' hav).plain (hf'.run hok).tree hg hobj hp hc

/-- the hypothesis of C01 on the object graph is stronger -/
theorem GoodHeap.graph {env : Env} {H : Heap} (h : GoodHeap P env H) : Graph P env H :=
  ⟨h.cls, h.wf, fun a o es h1 h2 k v hk q hq u hu => ((h.keys a o es h1 h2).2 k v hk q hq).2.2.2.1 u hu⟩

/-- the first string in the list at the key `'key'` in the first item of the list dumped to `/run/a`, after five more calls; it is the same
object as another one further up, and stored as a reference -/
example : ∃ n nd, walk (runOps C15.ops Ex.file1).store 0 [ps "run", ps "a", ps "data", ps "data0", ps "\"key\"", ps "data2"] = some n ∧
    (runOps C15.ops Ex.file1).store[n]? = some nd ∧ Shows Ex.env Ex.heap (.str (ps "hello")) nd.body := by
  refine C61_readable (a := Ex.dumpArgs) (names := [ps "data0", ps "\"key\"", ps "data2"]) Ex.envOk Ex.protOk Ex.file0_ok Ex.goodHeap.graph Ex.good.opts
    Ex.good.returns (o := ⟨.list, .seq [5, 2, 7, 8, 6, 9, 10]⟩) rfl ?_ ?_ ?_ rfl
  · intro o ho
    simp only [C15.ops, List.mem_cons, List.not_mem_nil, or_false] at ho
    rcases ho with rfl | rfl | rfl | rfl | rfl <;> first | exact ⟨Ex.envOk, Ex.protOk⟩ | trivial
  · intro o ho q hq
    simp only [C15.ops, List.mem_cons, List.not_mem_nil, or_false] at ho
    unfold Avoids
    rcases ho with rfl | rfl | rfl | rfl | rfl <;> simp [Op.path] at hq <;> subst hq <;> decide
  · rw [show ps "data0" = dataName 0 by decide +kernel, show ps "data2" = dataName 2 by decide +kernel]
    refine .cons (.item (i := 0) (b := 5) (o := ⟨.dict, .dict [(4, 2), (1, 3), (3, 2)]⟩) ⟨5, .head _, rfl⟩ rfl rfl) ?_
    refine .cons (.value (k := 4) (v := 2) (q := ⟨.str, .str (ps "key")⟩) (o := ⟨.list, .seq [0, 1, 0]⟩) (by decide) rfl (.str (by decide) (by decide)) rfl) ?_
    exact .cons (.item (i := 2) (b := 0) (o := ⟨.str, .str (ps "hello")⟩) ⟨0, .head _, rfl⟩ rfl rfl) .nil

namespace C61

/-- the content found in the file that `dump(obj, f)` made -/
def look (H : Heap) (obj : Addr) (names : List PyStr) : Option Seen :=
  let S := (dumpTop (Ex.args H obj) Ex.file0).2.store
  match walk S 0 (ps "data" :: names) with
  | none => none
  | some n => match S[n]? with
    | some ⟨_, _, .dset d⟩ => seen d
    | _ => none

/-- `d = {'me': d, b'n': [1, 2.5], (3, 4): 2**70}` -/
def heap : Heap := [
  ⟨.str, .str (ps "me")⟩, ⟨.bytes, .bytes [110]⟩, ⟨.int, .int 1⟩, ⟨.float, .float (.fin false 5 (-1))⟩, ⟨.list, .seq [2, 3]⟩,
  ⟨.int, .int 3⟩, ⟨.int, .int 4⟩, ⟨.tuple, .seq [5, 6]⟩, ⟨.int, .int (2 ^ 70)⟩, ⟨.dict, .dict [(0, 9), (1, 4), (7, 8)]⟩]

end C61

/-- what is found there: `d['me']['me'][b'n']`, an array of two floats; the key and the value of the third entry -/
example : C61.look C61.heap 9 [ps "\"me\"", ps "\"me\"", ps "b\"n\""] =
    some (.numbers .float64 [2] [.f (.fin false 1 0), .f (.fin false 5 (-1))]) := by decide +kernel
example : C61.look C61.heap 9 [ps "\"me\"", ps "data2", ps "data0"] = some (.numbers .int64 [2] [.i 3, .i 4]) := by decide +kernel
example : C61.look C61.heap 9 [ps "data2", ps "data1"] = some (.text (asciiBytes (ps "1180591620717411303424"))) := by decide +kernel

/-- arrays of strings and objects: `np.array([['a', 'b'], ['c', 'd']])`, `np.array([[None, 7], [7, 7]], dtype=object)` -/
example : C61.look [⟨.ndarray, .sarr 1 [2, 2] [ps "a", ps "b", ps "c", ps "d"]⟩] 0 [ps "data1", ps "data0"] = some (.text [99]) := by decide +kernel
example : let H : Heap := [⟨.noneType, .none⟩, ⟨.int, .int 7⟩, ⟨.ndarray, .oarr [2, 2] [0, 1, 1, 1]⟩]
    C61.look H 2 [ps "data0", ps "data1"] = some (.numbers .int64 [] [.i 7]) ∧ C61.look H 2 [ps "data1"] = some (.numbers .int64 [2] [.i 7, .i 7]) := by
  decide +kernel

end Verif
