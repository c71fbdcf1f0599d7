import Verif.Hickle.PartCall
import Verif.Props.C16
import Verif.Props.C45
/-!
# C57 What a failed dump leaves behind loads as a part of the object, or not at all

C16 and C45 are violated at the path of the failed dump itself: load may return something from there.  This file shows what that can be.
`Part` is defined in `Verif/Hickle/PartSpec.lean` without reference to dump and load.
-/
namespace Verif
open Prog (Ev dumpF)

variable {P : Nat → Prop}

/-- **C57 (partial).**  Let a dump to a path that holds nothing end in any way: it returns, fails with any exception of its own (an object that
cannot be pickled, a name that cannot be encoded, too deep a recursion), or is hit by any exceptions at any steps.  If a load from
this path then returns an object `b`, in this or another process, whatever the order in which HDF5 lists members, this
is a part of the dumped object: all that is in it is taken from the dumped object, has its place and its class, and where something
is missing there is an empty tuple, an element less or an entry less.  Nothing is mixed up or made up.
The object may be cyclic.

What is missing: loads whose outcome the model does not tell (`.unmodelled`), see `C57_unmodelled`; that load returns one object for two
references to the same object in what is left. -/
theorem C57_partial {a : DumpArgs} {s : Session} (hE : EnvOk P a.env) (hP : ProtOk P a.env) (hs : FileOk P s) (hg : GoodHeap P a.env a.heap)
    (hobj : a.obj < a.heap.length) (ho : OptsOk a s.store)
    (hfree : ∀ g ls, s.store.resolve 0 a.path = some g → s.store.links g = some ls → ls = [])
    (all : Bool) (es : List Ev) {t t' : Session} (hS : t.store = (dumpF all es a s).2.store) (hreg : RegInv P t.reg)
    {order : List (PyStr × NodeId) → List (PyStr × NodeId)} (hord : ∀ l, (order l).Perm l) {fuel : Nat} {L : Heap} {b : Addr}
    (hl : loadTop ⟨a.env, a.path, order, fuel⟩ t = (.ok (L, b), t')) : Part a.env a.heap L b a.obj :=
  (dumpF_tried hE hP (fun x o h => (hg.cls x o h).1) hs.reg hs.tree ho hfree all es).loads hE hg hobj hS hreg hord hl

/-- the same for a dump that is not hit by anything from outside -/
theorem C57_failed_partial {a : DumpArgs} {s : Session} (hE : EnvOk P a.env) (hP : ProtOk P a.env) (hs : FileOk P s) (hg : GoodHeap P a.env a.heap)
    (hobj : a.obj < a.heap.length) (ho : OptsOk a s.store)
    (hfree : ∀ g ls, s.store.resolve 0 a.path = some g → s.store.links g = some ls → ls = [])
    {t t' : Session} (hS : t.store = (dumpTop a s).2.store) (hreg : RegInv P t.reg)
    {order : List (PyStr × NodeId) → List (PyStr × NodeId)} (hord : ∀ l, (order l).Perm l) {fuel : Nat} {L : Heap} {b : Addr}
    (hl : loadTop ⟨a.env, a.path, order, fuel⟩ t = (.ok (L, b), t')) : Part a.env a.heap L b a.obj :=
  C57_partial hE hP hs hg hobj ho hfree false [] (by rw [Prog.dumpF_nil]; exact hS) hreg hord hl

/-! What `Part` says in simple cases -/

/-- a number, a string, a numeric array, a pickled object and the like (anything without items, arrays of strings excepted) is loaded completely or not at all -/
theorem Part.atom {env : Env} {H L : Heap} {b a : Addr} {o : Obj} (h : Part env H L b a) (ho : H[a]? = some o) (hv : o.val.isAtom = true)
    (hs : ∀ w sh ss, o.val ≠ .sarr w sh ss) : L[b]? = some o := by
  obtain ⟨R, h1, _, h3⟩ := h
  obtain ⟨p, ⟨cl', v'⟩, e1, e2, e3, e4⟩ := h3 b a h1
  rw [ho] at e1; simp at e1; subst e1
  obtain ⟨cl, v⟩ := o
  simp only at e3 e4 hv
  subst e3
  cases e4 with
  | atom => exact e2
  | sarr => exact absurd rfl (hs _ _ _)
  | _ => simp [Val.isAtom] at hv

/-- a list of strings is loaded as a list of the same length, in which each string stands in its place or an empty tuple does -/
theorem Part.strings {env : Env} {H L : Heap} {b a : Addr} {as : List Addr} (h : Part env H L b a) (ho : H[a]? = some ⟨.list, .seq as⟩)
    (hs : ∀ c ∈ as, ∃ s, H[c]? = some ⟨.str, .str s⟩) :
    ∃ xs, L[b]? = some ⟨.list, .seq xs⟩ ∧ All2 (fun x c => L[x]? = some ⟨.tuple, .seq []⟩ ∨ L[x]? = H[c]?) xs as := by
  obtain ⟨R, h1, h2, h3⟩ := h
  obtain ⟨p, ⟨cl', v'⟩, e1, e2, e3, e4⟩ := h3 b a h1
  rw [ho] at e1; simp at e1; subst e1
  simp only at e3 e4
  subst e3
  cases e4 with
  | atom h => simp [Val.isAtom] at h
  | @seq xs _ hi =>
    refine ⟨xs, e2, ?_⟩
    have hstr : ∀ x c, c ∈ as → R x c → L[x]? = H[c]? := by
      intro x c hc hR
      obtain ⟨s, hs⟩ := hs c hc
      rw [hs]
      exact Part.atom ⟨R, hR, h2, h3⟩ hs rfl (by simp)
    clear e2 ho
    rcases hi with hi | ⟨d, hi⟩
    · induction hi with
      | nil => exact .nil
      | cons q _ ih =>
        exact .cons (q.imp id (hstr _ _ (by simp))) (ih (fun c hc => hs c (by simp [hc])) fun x c hc => hstr x c (by simp [hc]))
    · cases hi with
      | nil => exact .nil
      | cons q _ =>
        exfalso
        obtain ⟨o, o', q1, _, v, w, q2, _⟩ := q
        obtain ⟨s, hs⟩ := hs _ (List.mem_cons_self ..)
        rw [hs] at q1; simp at q1; subst q1
        simp [exactNum] at q2

/-- the class is that of the dumped object -/
theorem Part.cls {env : Env} {H L : Heap} {b a : Addr} (h : Part env H L b a) : ∃ o o', H[a]? = some o ∧ L[b]? = some o' ∧ o'.cls = o.cls := by
  obtain ⟨R, h1, _, h3⟩ := h
  obtain ⟨o, o', e1, e2, e3, _⟩ := h3 b a h1
  exact ⟨o, o', e1, e2, e3⟩

/-! `C57_partial` on concrete data.  The dumps of C16 and C45, which fail, and from whose path load returns something. -/

namespace C57

/-- what is asked of a dump to the root of a new file -/
theorem fits {H : Heap} {obj : Addr} (h1 : ∀ o ∈ H, GoodCls (fun _ => True) Ex.env o.cls ∧ ObjOk Ex.env o) (h2 : H.all (objB Ex.env H) = true)
    (h3 : unitB H = true) (h4 : obj < H.length) (all : Bool) (es : List Ev) {t' : Session} {L : Heap} {b : Addr}
    (hl : loadTop ⟨Ex.env, [], id, 100⟩ (dumpF all es (Ex.args H obj) Ex.file0).2 = (.ok (L, b), t')) : Part Ex.env H L b obj := by
  refine C57_partial (a := Ex.args H obj) Ex.envOk Ex.protOk Ex.file0_ok (goodHeap_of h1 h2 h3) h4 ⟨?_, ?_⟩ ?_ all es rfl ?_ (fun l => .refl l) hl
  · intro os h; simp at h; subst h; simp
  · intro g at' k1 k2
    have : Ex.file0.store.attrs 0 = some [] := rfl
    simp [Store.resolve] at k1; subst k1
    change Ex.file0.store.attrs 0 = some at' at k2
    rw [this] at k2; simp at k2; subst k2
    simp [attrOptions, attrItems]
  · intro g ls k1 k2
    have : Ex.file0.store.links 0 = some [] := rfl
    simp [Store.resolve] at k1; subst k1
    change Ex.file0.store.links 0 = some ls at k2
    rw [this] at k2; simp at k2; subst k2; rfl
  · obtain ⟨d, h⟩ := dumpF_amid (a := Ex.args H obj) Ex.envOk Ex.protOk Ex.file0_ok.reg all es
    exact h.reg

theorem native {H : Heap} (h : H.all NativeOk = true) : ∀ o ∈ H, GoodCls (fun _ => True) Ex.env o.cls ∧ ObjOk Ex.env o := by
  rintro ⟨cl, v⟩ ho
  have := List.all_eq_true.1 h _ ho
  exact ⟨goodCls_native this, objOk_native this⟩

/-- the load of a store left returned this -/
theorem of_loads {s : Session} {L : Heap} {b : Addr} (h : (loadTop ⟨Ex.env, [], id, 100⟩ s).1.toOption = some (L, b)) :
    ∃ t', loadTop ⟨Ex.env, [], id, 100⟩ s = (.ok (L, b), t') := by
  cases hx : loadTop ⟨Ex.env, [], id, 100⟩ s with
  | mk r t =>
    rw [hx] at h
    cases r with
    | error e => simp [Except.toOption] at h
    | ok q => simp [Except.toOption] at h; subst h; exact ⟨t, rfl⟩

/-- `['a', 'b']`, interrupted when `'b'` is written: `['a', ()]` is a part of it -/
theorem interrupted : Part Ex.env C45.heap [⟨.tuple, .seq []⟩, ⟨.str, .str (ps "a")⟩, ⟨.list, .seq [1, 0]⟩] 2 2 := by
  obtain ⟨t', h⟩ := of_loads C45_violated_self.2
  exact fits (native (by decide +kernel)) (by decide +kernel) (by decide +kernel) (by decide) _ _ h

/-- `{('k',): 'k', 'k': 0.0}` -/
def dictHeap : Heap := [⟨.str, .str (ps "k")⟩, ⟨.tuple, .seq [0]⟩, ⟨.float, .float (.fin false 0 0)⟩, ⟨.dict, .dict [(1, 0), (0, 2)]⟩]

/-- the disk is full when the string in the first key is written: load returns `{((),): ()}`, with a key that nobody has ever used -/
theorem violated_key :
    Ex.raised (dumpF false (C45.at 25 .osError) (Ex.args dictHeap 3) Ex.file0).1 = some .osError ∧
    (loadTop ⟨Ex.env, [], id, 100⟩ (dumpF false (C45.at 25 .osError) (Ex.args dictHeap 3) Ex.file0).2).1.toOption =
      some ([⟨.tuple, .seq []⟩, ⟨.tuple, .seq [0]⟩, ⟨.tuple, .seq [1, 0]⟩, ⟨.dict, .dict [(1, 0)]⟩], 3) := by decide +kernel

/-- but it is a part in the sense of `Part` -/
theorem interrupted_key : Part Ex.env dictHeap [⟨.tuple, .seq []⟩, ⟨.tuple, .seq [0]⟩, ⟨.tuple, .seq [1, 0]⟩, ⟨.dict, .dict [(1, 0)]⟩] 3 3 := by
  obtain ⟨t', h⟩ := of_loads violated_key.2
  exact fits (native (by decide +kernel)) (by decide +kernel) (by decide +kernel) (by decide) _ _ h

/-- `Part` is not true of everything: `['b', ()]` is not a part of `['a', 'b']` -/
example : ¬ Part Ex.env C45.heap [⟨.tuple, .seq []⟩, ⟨.str, .str (ps "b")⟩, ⟨.list, .seq [1, 0]⟩] 2 2 := by
  intro h
  obtain ⟨xs, h1, h2⟩ := h.strings rfl (by
    intro c hc
    simp at hc
    rcases hc with rfl | rfl
    · exact ⟨_, rfl⟩
    · exact ⟨_, rfl⟩)
  simp at h1; subst h1
  cases h2 with
  | cons q _ => rcases q with q | q <;> simp [C45.heap] at q; revert q; decide

/-- a list that contains itself and an object that cannot be pickled -/
def cyclic : Heap := [⟨.str, .str (ps "a")⟩, ⟨.object, .opaque 9 false⟩, ⟨.list, .seq [0, 2, 1, 0]⟩]

/-- `l = ['a', l, unpicklable, 'a']` is dumped: `PicklingError`.  (Load of a list that contains itself fails, C03.) -/
example : Ex.raised (dumpTop (Ex.args cyclic 2) Ex.file0).1 = some .picklingError ∧
    Ex.raised (loadTop ⟨Ex.env, [], id, 100⟩ (dumpTop (Ex.args cyclic 2) Ex.file0).2).1 = some .valueError := by decide +kernel

end C57

/-- **C57 does not cover untyped data.**  The disk is full when the type of a dumped `bytes` object is to be stored: `dump` raises `OSError`,
and a dataset stays behind that holds the bytes and has no type.  Load takes it for pickled data and gives the bytes, which may come
from anywhere, to `pickle.loads` (lookup.py:1503-1510); what that does with them the model does not tell. -/
theorem C57_unmodelled :
    let s1 := (dumpF false (C45.at 12 .osError) (Ex.args [⟨.bytes, .bytes [128, 3, 75, 5, 46]⟩] 0) Ex.file0).2
    Ex.raised (dumpF false (C45.at 12 .osError) (Ex.args [⟨.bytes, .bytes [128, 3, 75, 5, 46]⟩] 0) Ex.file0).1 = some .osError ∧
    ((s1.store.resolve 0 [dataName0]).bind (s1.store[·]?)).map (fun n => (n.body, Assoc.get? n.attrs "type")) =
      some (.dset (.chars [128, 3, 75, 5, 46]), none) ∧
    Ex.raised (loadTop ⟨Ex.env, [], id, 100⟩ s1).1 = some .unmodelled := by decide +kernel

end Verif
