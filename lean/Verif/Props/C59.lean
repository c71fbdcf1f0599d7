import Verif.Hickle.AlikeDump
import Verif.Props.C43
/-!
# C59 The file depends on the classes, the values, the order and the sharing of the objects, and on nothing else

`dump` decides by the addresses of objects (`id(py_obj)`, hickle.py:105) whether they have been dumped already.  Which addresses the
objects have makes no difference to the file.

Specification: `Isomorphic`.  Two object graphs correspond if corresponding objects have the same class and equal values, or the same
number of items, which correspond in order, and if an object that occurs twice corresponds to one that occurs twice.  For None, booleans and
numbers the latter does not matter.
-/
namespace Verif

variable {P : Nat → Prop}

/-- None, booleans, numbers of Python and numpy -/
def Cls.isNumber : Cls → Bool
  | .noneType | .bool | .int | .float | .complex | .npBool | .npInt64 | .npFloat64 | .npComplex128 => true
  | _ => false

/-- equal values, or containers with corresponding items in the same order -/
inductive ValIso (I : Addr → Addr → Prop) : Val → Val → Prop
  | atom {v} : v.isAtom = true → ValIso I v v
  | seq {xs ys} : All2 I xs ys → ValIso I (.seq xs) (.seq ys)
  | set {xs ys} : All2 I xs ys → ValIso I (.set xs) (.set ys)
  | dict {es es'} : All2 (fun (e e' : Addr × Addr) => I e.1 e'.1 ∧ I e.2 e'.2) es es' → ValIso I (.dict es) (.dict es')
  | oarr {sh xs ys} : All2 I xs ys → ValIso I (.oarr sh xs) (.oarr sh ys)
  | sparse {d i p d' i' p' sh} : I d d' → I i i' → I p p' → ValIso I (.sparse d i p sh) (.sparse d' i' p' sh)

/-- `I x y`: object `x` of `H` corresponds to object `y` of `H'` -/
structure Isomorphic (H H' : Heap) (I : Addr → Addr → Prop) : Prop where
  same : ∀ x y, I x y → ∃ o o', H[x]? = some o ∧ H'[y]? = some o' ∧ o.cls = o'.cls ∧ ValIso I o.val o'.val
  one : ∀ x y x' y' o, I x y → I x' y' → H[x]? = some o → o.cls.isNumber = false → (x = x' ↔ y = y')

/-- numbers are not remembered -/
theorem number_memo (env : Env) {c : Cls} (h : c.isNumber = true) : (expected env c).2.memoise = false := by
  cases c <;> first | rfl | simp [Cls.isNumber] at h

theorem ValIso.alike {I : Addr → Addr → Prop} {v v' : Val} (h : ValIso I v v') (env : Env) (H H' : Heap) : ValAlike env H H' I v v' := by
  cases h with
  | atom h => exact .atom h
  | seq h => exact .seq (.inl h)
  | set h => exact .set (.inl h)
  | dict h => exact .dict (h.mono fun _ _ h => .inr (.inl h))
  | oarr h => exact .oarr h
  | sparse h1 h2 h3 => exact .sparse h1 h2 h3

theorem Isomorphic.alike {H H' : Heap} {I : Addr → Addr → Prop} (h : Isomorphic H H' I) (env : Env) : Alike env H H' I := by
  intro x y hxy
  obtain ⟨o, o', h1, h2, h3, h4⟩ := h.same x y hxy
  exact ⟨o, o', h1, h2, h3, h4.alike env H H'⟩

/-- **C59.**  Two processes, whatever they did before, dump corresponding objects into equal files: both calls return, or both
raise the same exception, and the files are equal, complete or partly written.
*Missing*: the same as in C43, and equal sets that are enumerated in different orders (`C59_violated`). -/
theorem C59_partial {a : DumpArgs} {H' : Heap} {y : Addr} {I : Addr → Addr → Prop} (hI : Isomorphic a.heap H' I) (hobj : I a.obj y) {r r' : Registry} (h : Reached P r) (h' : Reached P r')
    (hE : EnvOk P a.env) (hcls : ∀ o ∈ a.heap, GoodCls P a.env o.cls) {os} (hos : a.options = some os) (s : Session) :
    let one := dumpTop a { s with reg := r }
    let two := dumpTop { a with heap := H', obj := y } { s with reg := r' }
    one.1 = two.1 ∧ one.2.store = two.2.store := by
  have key := dumpTop_mirror (R := I) hE hcls hos (hI.alike a.env)
    (fun x y x' y' o k1 k2 k3 k4 => hI.one x y x' y' o k1 k2 k3 (by
      cases hn : o.cls.isNumber with
      | false => rfl
      | true => rw [number_memo a.env hn] at k4; cases k4)) hobj { s with reg := r' } h'.inv
  have hist := C43_history_partial h h' hE hcls hos s
  simp only at hist ⊢
  rw [← key]
  exact ⟨hist.1, hist.2.1⟩

/-! ### examples -/

/-- `s = 'ab'; x = 1; [s, s, x, x]` … -/
def C59.one : Heap := [⟨.str, .str (ps "ab")⟩, ⟨.int, .int 1⟩, ⟨.list, .seq [0, 0, 1, 1]⟩]
/-- … the same list elsewhere in memory, with two objects `1` … -/
def C59.two : Heap := [⟨.int, .int 1⟩, ⟨.list, .seq [2, 2, 0, 3]⟩, ⟨.str, .str (ps "ab")⟩, ⟨.int, .int 1⟩]
/-- … and a list with two strings `'ab'` -/
def C59.three : Heap := [⟨.int, .int 1⟩, ⟨.list, .seq [2, 4, 0, 3]⟩, ⟨.str, .str (ps "ab")⟩, ⟨.int, .int 1⟩, ⟨.str, .str (ps "ab")⟩]

def C59.pairs : List (Addr × Addr) := [(0, 2), (1, 0), (1, 3), (2, 1)]

theorem C59.iso : Isomorphic C59.one C59.two fun x y => (x, y) ∈ C59.pairs := by
  constructor
  · intro x y h
    simp only [C59.pairs, List.mem_cons, List.not_mem_nil, or_false, Prod.mk.injEq] at h
    rcases h with ⟨rfl, rfl⟩ | ⟨rfl, rfl⟩ | ⟨rfl, rfl⟩ | ⟨rfl, rfl⟩
    · exact ⟨_, _, rfl, rfl, rfl, .atom rfl⟩
    · exact ⟨_, _, rfl, rfl, rfl, .atom rfl⟩
    · exact ⟨_, _, rfl, rfl, rfl, .atom rfl⟩
    · exact ⟨_, _, rfl, rfl, rfl, .seq (.cons (by decide) (.cons (by decide) (.cons (by decide) (.cons (by decide) .nil))))⟩
  · intro x y x' y' o h h' ho hn
    simp only [C59.pairs, List.mem_cons, List.not_mem_nil, or_false, Prod.mk.injEq] at h h'
    rcases h with ⟨rfl, rfl⟩ | ⟨rfl, rfl⟩ | ⟨rfl, rfl⟩ | ⟨rfl, rfl⟩ <;> rcases h' with ⟨rfl, rfl⟩ | ⟨rfl, rfl⟩ | ⟨rfl, rfl⟩ | ⟨rfl, rfl⟩ <;>
      first | (simp; done) | (simp [C59.one] at ho; subst ho; simp [Cls.isNumber] at hn)

/-- The two lists are dumped into equal files, by a new process and by one that has been at work … -/
theorem C59.same_file (r r' : Registry) (h : Reached (fun _ => True) r) (h' : Reached (fun _ => True) r') :
    (dumpTop (Ex.args C59.one 2) { Ex.file0 with reg := r }).2.store = (dumpTop (Ex.args C59.two 1) { Ex.file0 with reg := r' }).2.store := by
  have e : Ex.args C59.two 1 = { Ex.args C59.one 2 with heap := C59.two, obj := 1 } := rfl
  rw [e]
  have hh : ∀ o ∈ C59.one, o.cls ≠ .recover ∧ o.cls ≠ .recGroup ∧ o.cls ≠ .recData ∧ o.cls ≠ .nodeRef := by decide
  have hc : ∀ o ∈ (Ex.args C59.one 2).heap, GoodCls (fun _ => True) (Ex.args C59.one 2).env o.cls := fun o ho => Ex.goodCls (hh o ho)
  have ho : (Ex.args C59.one 2).options = some [] := rfl
  have hI : Isomorphic (Ex.args C59.one 2).heap C59.two fun x y => (x, y) ∈ C59.pairs := C59.iso
  have hobj : ((Ex.args C59.one 2).obj, 1) ∈ C59.pairs := by decide
  exact (C59_partial hI hobj h h' Ex.envOk hc ho Ex.file0).2

example : Reached (fun _ => True) Registry.initial ∧ Reached (fun _ => True) Ex.usedReg := ⟨.start, Ex.usedReg_reached⟩

/-- … and both dumps return -/
example : Ex.isOk (dumpTop (Ex.args C59.one 2) Ex.file0).1 = true ∧ Ex.isOk (dumpTop (Ex.args C59.two 1) Ex.file0).1 = true := ⟨by decide +kernel, by decide +kernel⟩

/-- The file shows the sharing of strings: the third list, equal (`==`) to the other two, gives another file. -/
theorem C59_sharing : (dumpTop (Ex.args C59.one 2) Ex.file0).2.store ≠ (dumpTop (Ex.args C59.three 1) Ex.file0).2.store := by decide +kernel

/-! ### violation -/

/-- the set `{'a', 1}`, as enumerated by one process and by another -/
def C59.set1 : Heap := [⟨.str, .str (ps "a")⟩, ⟨.int, .int 1⟩, ⟨.set, .set [0, 1]⟩]
def C59.set2 : Heap := [⟨.str, .str (ps "a")⟩, ⟨.int, .int 1⟩, ⟨.set, .set [1, 0]⟩]

/-- **C59 is violated** by sets: they are written in the order of enumeration, which changes with the hashes of strings from process to
process (load_builtins.py:241-247), so that equal sets give different files. -/
theorem C59_violated : Ex.isOk (dumpTop (Ex.args C59.set1 2) Ex.file0).1 = true ∧ Ex.isOk (dumpTop (Ex.args C59.set2 2) Ex.file0).1 = true ∧
    (dumpTop (Ex.args C59.set1 2) Ex.file0).2.store ≠ (dumpTop (Ex.args C59.set2 2) Ex.file0).2.store := ⟨by decide +kernel, by decide +kernel, by decide +kernel⟩

end Verif
