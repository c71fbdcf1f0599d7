import Verif.Props.Check
import Verif.Props.Basic
/-!
# A concrete object graph and file

Used beside the property theorems to show that their hypotheses are met by non-trivial cases.
-/
namespace Verif.Ex

/-- a class without a loader, and a subclass of `list` -/
def userCls : Nat → UserCls
  | 0 => { name := "Point", origin := .pkg "shapes", bases := [.object], picklable := true, importable := true, ctor := fun _ => .error .typeError }
  | _ => { name := "MyList", origin := .pkg "shapes", bases := [.list, .object], picklable := true, importable := true,
           ctor := fun
             | .empty => .ok (.seq [])
             | .items l => .ok (.seq l)
             | _ => .error .typeError }

/-- digits, `e` and a signed number, read as `m * 2 ^ e` -/
def parseBody (neg : Bool) (s : PyStr) : Option F64 :=
  match parseNat (s.takeWhile (· != 101)), parseInt ((s.dropWhile (· != 101)).drop 1) with
  | some m, some e => some (.fin neg m e)
  | _, _ => none

/-- a stand-in for `repr(float)`: `nan`, `inf`, `-inf`, and `3e-1` for `3 * 2 ^ -1`.  It is made of the characters
of Python's `repr` and can be read back. -/
def reprF : F64 → PyStr
  | .nan => ps "nan"
  | .inf b => (if b then [45] else []) ++ ps "inf"
  | .fin b m e => (if b then [45] else []) ++ (digits m ++ 101 :: showInt e)

def parseF (s : PyStr) : Option F64 :=
  if s = ps "nan" then some .nan else if s = ps "inf" then some (.inf false) else if s = ps "-inf" then some (.inf true) else
  match s with
  | 45 :: t => parseBody true t
  | t => parseBody false t

theorem takeWhile_to {c : Nat} {l r : PyStr} (h : c ∉ l) : (l ++ c :: r).takeWhile (· != c) = l ∧ (l ++ c :: r).dropWhile (· != c) = c :: r := by
  induction l with
  | nil => simp
  | cons x l ih =>
    simp only [List.mem_cons, not_or] at h
    obtain ⟨h1, h2⟩ := ih h.2
    have : (x != c) = true := by simpa using fun e => h.1 e.symm
    simp [this, h1, h2]

theorem parse_body (b : Bool) (m : Nat) (e : Int) : parseBody b (digits m ++ 101 :: showInt e) = some (.fin b m e) := by
  have h : (101 : Nat) ∉ digits m := fun h => by have := digits_isDigit m _ h; simp [isDigit] at this
  obtain ⟨h1, h2⟩ := takeWhile_to (r := showInt e) h
  simp only [parseBody, h1, h2, List.drop_succ_cons, List.drop_zero, parseNat_digits, parseInt_showInt]

theorem body_head (m : Nat) (e : Int) : ∃ d t, digits m ++ 101 :: showInt e = d :: t ∧ 48 ≤ d ∧ d < 58 := by
  have h0 := digits_isDigit m
  cases hd : digits m with
  | nil => exact absurd hd (digits_ne_nil m)
  | cons d t =>
    have := h0 d (by rw [hd]; simp)
    simp [isDigit] at this
    exact ⟨d, _, rfl, this⟩

theorem parse_repr (x : F64) : parseF (reprF x) = some x := by
  cases x with
  | nan => decide
  | inf b => cases b <;> decide
  | fin b m e =>
    obtain ⟨d, t, h1, h2, h3⟩ := body_head m e
    have hb := parse_body b m e
    rw [h1] at hb
    have k1 : ps "nan" = [110, 97, 110] := by decide
    have k2 : ps "inf" = [105, 110, 102] := by decide
    have k3 : ps "-inf" = [45, 105, 110, 102] := by decide
    simp only [reprF, parseF, h1, k1, k2, k3]
    cases b with
    | false =>
      simp only [Bool.false_eq_true, if_false, List.nil_append, List.cons.injEq]
      rw [if_neg (by omega), if_neg (by omega), if_neg (by omega)]
      split
      · next h => simp at h; omega
      · exact hb
    | true =>
      simp only [if_true, List.cons_append, List.nil_append, List.cons.injEq]
      rw [if_neg (by omega), if_neg (by omega), if_neg (by omega)]
      exact hb

theorem reprF_chars (x : F64) : ∀ c ∈ reprF x, isDigit c = true ∨ c = 45 ∨ c = 101 ∨ c = 110 ∨ c = 97 ∨ c = 105 ∨ c = 102 := by
  cases x with
  | nan => decide
  | inf b => cases b <;> decide
  | fin b m e =>
    intro c hc
    simp only [reprF, List.mem_append, List.mem_cons] at hc
    rcases hc with hc | hc | hc | hc
    · cases b
      · simp at hc
      · simp at hc; exact .inr (.inl hc)
    · exact .inl (digits_isDigit m c hc)
    · exact .inr (.inr (.inl hc))
    · rcases showInt_chars e c hc with h | h
      · exact .inl h
      · exact .inr (.inl h)

/-- a stand-in for `repr(complex)`: `(3e-1+nanj)` -/
def reprC (x y : F64) : PyStr := 40 :: (reprF x ++ 43 :: (reprF y ++ [106, 41]))

def parseC (s : PyStr) : Option (F64 × F64) :=
  match parseF ((s.drop 1).takeWhile (· != 43)), parseF ((((s.drop 1).dropWhile (· != 43)).drop 1).dropLast.dropLast) with
  | some x, some y => some (x, y)
  | _, _ => none

theorem parse_reprC (x y : F64) : parseC (reprC x y) = some (x, y) := by
  have h : (43 : Nat) ∉ reprF x := fun h => by have := reprF_chars x _ h; simp [isDigit] at this
  obtain ⟨h1, h2⟩ := takeWhile_to (r := reprF y ++ [106, 41]) h
  have h3 : (reprF y ++ [106, 41]).dropLast.dropLast = reprF y := by
    rw [show [106, 41] = [(106 : Nat)] ++ [41] from rfl, ← List.append_assoc, List.dropLast_concat, List.dropLast_concat]
  simp only [parseC, reprC, List.drop_succ_cons, List.drop_zero, h1, h2, h3, parse_repr]

theorem slash_reprF (x : F64) : strSlash (reprF x) = false := by
  unfold strSlash
  rw [List.any_eq_false]
  intro c hc
  have := reprF_chars x c hc
  simp only [isDigit, Bool.and_eq_true, decide_eq_true_eq] at this
  simp only [Bool.or_eq_true, decide_eq_true_eq]; omega

theorem slash_reprC (x y : F64) : strSlash (reprC x y) = false := by
  have h1 := slash_reprF x
  have h2 := slash_reprF y
  unfold strSlash at *
  simp [reprC, h1, h2]

/-- CPython with a 4300 digit limit and numpy >= 1.24; no third party loader modules -/
def env : Env where
  u := userCls
  mods := fun _ => none
  reprF := reprF
  parseF := parseF
  reprC := reprC
  parseC := parseC
  maxDigits := some 4300
  maxDims := 32
  raggedRaises := true
  opaqueEq := fun a b => decide (a = b)

/-- shared strings and lists, a dict with a string, an int and a tuple key, a big int, an object that
gets pickled, a set, a subclass instance, an empty tuple -/
def heap : Heap := [
  ⟨.str, .str (ps "hello")⟩,                    -- 0
  ⟨.int, .int 7⟩,                               -- 1
  ⟨.list, .seq [0, 1, 0]⟩,                      -- 2
  ⟨.tuple, .seq [1, 1]⟩,                        -- 3
  ⟨.str, .str (ps "key")⟩,                      -- 4
  ⟨.dict, .dict [(4, 2), (1, 3), (3, 2)]⟩,      -- 5
  ⟨.int, .int (2 ^ 70)⟩,                        -- 6
  ⟨.user 0, .opaque 5 true⟩,                    -- 7
  ⟨.set, .set [0, 6]⟩,                          -- 8
  ⟨.tuple, .seq []⟩,                            -- 9
  ⟨.user 1, .seq [0, 9]⟩,                       -- 10
  ⟨.list, .seq [5, 2, 7, 8, 6, 9, 10]⟩]         -- 11

/-- built-in types only -/
def plain : Heap := [
  ⟨.float, .float (.fin false 3 (-1))⟩,         -- 0: 1.5
  ⟨.int, .int 3⟩,                               -- 1
  ⟨.bytes, .bytes [1, 2]⟩,                      -- 2
  ⟨.dict, .dict [(0, 1), (1, 2)]⟩,              -- 3
  ⟨.noneType, .none⟩,                           -- 4
  ⟨.list, .seq [3, 4, 3]⟩]                      -- 5

def dumpArgs : DumpArgs := { env := env, heap := heap, obj := 11, path := [ps "run", ps "a"], kw := [], fuel := 20 }

def isOk {α : Type} : Except PyErr α → Bool
  | .ok _ => true
  | .error _ => false

/-- the exception a call raised -/
def raised {α : Type} : Except PyErr α → Option PyErr
  | .ok _ => none
  | .error e => some e

theorem eq_of_isOk {α σ : Type} {r : Except PyErr α × σ} (h : isOk r.1 = true) : ∃ x, r = (.ok x, r.2) := by
  obtain ⟨x | x, s⟩ := r
  · simp [isOk] at h
  · exact ⟨x, rfl⟩

theorem eq_of_raised {α σ : Type} {r : Except PyErr α × σ} {e : PyErr} (h : raised r.1 = some e) : r = (.error e, r.2) := by
  obtain ⟨x | x, s⟩ := r
  · simp [raised] at h; subst h; rfl
  · simp [raised] at h

/-- the file before the dump -/
def file0 : Session := newFile Registry.initial
/-- the file after the dump -/
def file1 : Session := (dumpTop dumpArgs file0).2

theorem envOk {P : Nat → Prop} : EnvOk P env := by intro p lm h; simp [env] at h

theorem protOk {P : Nat → Prop} : ProtOk P env := by
  intro k _
  match k with
  | 0 => exact ⟨"shapes", rfl⟩
  | _ + 1 => exact ⟨"shapes", rfl⟩

theorem file0_ok : FileOk (fun _ => True) file0 := newFile_ok RegInv.initial

/-- every class of the examples is considered -/
theorem goodCls {c : Cls} (h : c ≠ .recover ∧ c ≠ .recGroup ∧ c ≠ .recData ∧ c ≠ .nodeRef) : GoodCls (fun _ => True) env c := by
  intro k hk
  refine ⟨by cases k <;> trivial, .inl ?_⟩
  cases c with
  | user n =>
    match n with
    | 0 =>
      have : k = .user 0 ∨ k = .object := by simpa [Cls.mro, env, userCls] using hk
      rcases this with rfl | rfl <;> exact ⟨_, rfl⟩
    | n + 1 =>
      have : k = .user (n + 1) ∨ k = .list ∨ k = .object := by simpa [Cls.mro, env, userCls] using hk
      rcases this with rfl | rfl | rfl <;> exact ⟨_, rfl⟩
  | recover => simp at h
  | recGroup => simp at h
  | recData => simp at h
  | nodeRef => simp at h
  | _ =>
    simp only [Cls.mro, List.mem_cons, List.not_mem_nil, or_false] at hk
    rcases hk with rfl | rfl | rfl | rfl | rfl <;> exact ⟨_, rfl⟩

theorem objOk : ∀ o ∈ heap, ObjOk env o := by
  have h : ∀ o ∈ heap, (match o.cls with | .user _ => true | _ => NativeOk o) = true := by decide +kernel
  intro o ho
  have := h o ho
  obtain ⟨cl, v⟩ := o
  unfold ObjOk
  cases cl with
  | user k =>
    have h2 : (⟨.user k, v⟩ : Obj) ∈ heap → (k = 0 ∧ v = .opaque 5 true) ∨ (k = 1 ∧ v = .seq [0, 9]) := by
      intro hm
      simpa [heap] using hm
    rcases h2 ho with ⟨rfl, rfl⟩ | ⟨rfl, rfl⟩
    · exact ⟨rfl, by decide⟩
    · exact ⟨rfl, .inl (by decide), rfl, fun _ => rfl⟩
  | _ => exact this

theorem goodHeap : GoodHeap (fun _ => True) env heap := by
  refine goodHeap_of (fun o ho => ⟨goodCls ?_, objOk o ho⟩) (by decide +kernel) (by decide +kernel)
  have : ∀ o ∈ heap, o.cls ≠ .recover ∧ o.cls ≠ .recGroup ∧ o.cls ≠ .recData ∧ o.cls ≠ .nodeRef := by decide +kernel
  exact this o ho

theorem ranked : Ranked heap id := ranked_of (by decide +kernel)

/-- the dump succeeds -/
theorem dump_ok : dumpTop dumpArgs file0 = (.ok (), file1) := by
  have h : isOk (dumpTop dumpArgs file0).1 = true := by decide +kernel
  unfold file1
  cases hx : dumpTop dumpArgs file0 with
  | mk r s =>
    rw [hx] at h
    cases r with
    | error e => simp [isOk] at h
    | ok u => rfl

theorem optsOk : OptsOk dumpArgs file0.store := by
  refine ⟨?_, ?_⟩
  · intro os h; simp [dumpArgs] at h; subst h; simp
  · intro g at' h1 _
    have : file0.store.resolve 0 dumpArgs.path = none := by decide +kernel
    rw [this] at h1; simp at h1

/-- the dump of `heap` -/
theorem good : GoodDump (fun _ => True) dumpArgs file0 file1 :=
  ⟨envOk, protOk, file0_ok, goodHeap, ⟨_, ranked⟩, by decide +kernel, optsOk, dump_ok⟩

/-- dump of object `obj` of a heap `H` to the root group of a new file -/
abbrev args (H : Heap) (obj : Addr) : DumpArgs := { env := env, heap := H, obj := obj, path := [], fuel := 100 }

/-- dump object `obj` of heap `H` to the root group of a new file, and load it from there -/
def roundTrip (env : Env) (H : Heap) (obj : Addr) : Option (Heap × Addr) :=
  match dumpTop { env := env, heap := H, obj := obj, path := [], fuel := 100 } file0 with
  | (.ok _, s') => match loadTop ⟨env, [], id, 100⟩ s' with
    | (.ok r, _) => some r
    | _ => none
  | _ => none

theorem of_roundTrip {env : Env} {H : Heap} {obj : Addr} {L : Heap} {b : Addr} (h : roundTrip env H obj = some (L, b)) :
    ∃ s' s'', dumpTop { env := env, heap := H, obj := obj, path := [], fuel := 100 } file0 = (.ok (), s') ∧
      loadTop ⟨env, [], id, 100⟩ s' = (.ok (L, b), s'') := by
  unfold roundTrip at h
  split at h
  · next s' hd =>
    split at h
    · next r s'' hl => simp at h; subst h; exact ⟨s', s'', hd, hl⟩
    · simp at h
  · simp at h

/-- computable form of `GoodDump` for built-in types -/
def checkB (H : Heap) (obj : Addr) : Bool :=
  H.all NativeOk && H.all (objB env H) && unitB H && rankB 0 H && decide (obj < H.length) && isOk (dumpTop (args H obj) file0).1

theorem good_of {H : Heap} {obj : Addr} (h : checkB H obj = true) : ∃ s', GoodDump (fun _ => True) (args H obj) file0 s' := by
  simp only [checkB, Bool.and_eq_true, decide_eq_true_eq] at h
  obtain ⟨⟨⟨⟨⟨h1, h2⟩, h3⟩, h4⟩, h5⟩, h6⟩ := h
  rw [List.all_eq_true] at h1
  cases hx : dumpTop (args H obj) file0 with
  | mk r s' =>
    rw [hx] at h6
    cases r with
    | error e => simp [isOk] at h6
    | ok u =>
      refine ⟨s', envOk, protOk, file0_ok, goodHeap_of (fun o ho => ?_) h2 h3, ⟨_, ranked_of h4⟩, h5, ⟨?_, ?_⟩, hx⟩
      · obtain ⟨cl, v⟩ := o
        exact ⟨goodCls_native (h1 _ ho), objOk_native (h1 _ ho)⟩
      · intro os h; simp at h; subst h; simp
      · intro g at' k1 k2
        have : file0.store.attrs 0 = some [] := rfl
        simp [Store.resolve] at k1; subst k1
        change file0.store.attrs 0 = some at' at k2
        rw [this] at k2; simp at k2; subst k2
        simp [attrOptions, attrItems]

end Verif.Ex
