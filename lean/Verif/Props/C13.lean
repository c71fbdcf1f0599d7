import Verif.Props.Values
import Verif.Props.Parts
/-!
# C13 Objects without a loader are pickled and come back
-/
namespace Verif

variable {P : Nat → Prop}

/-- **C13.**  An object without a loader (`Val.opaque`), at the end of any path, loads as the unpickled object: same
class, same state. -/
theorem C13_pickled {a : DumpArgs} {s s' : Session} (h : GoodDump P a s s') {π : List Step} {c : Addr} {cl : Cls} {st : Nat} {p : Bool}
    (hf : follow a.heap a.obj π = some c) (hc : a.heap[c]? = some ⟨cl, .opaque st p⟩) :
    Loads P a.env s'.store a.path fun L b => ∃ x : Addr, follow L b π = some x ∧ L[x]? = some ⟨cl, .opaque st p⟩ :=
  h.loads.imp fun _ _ hl => hl.1.exact_nonum hf hc (by cases cl <;> rfl) rfl

theorem keySlot_opaque {env : Env} {cl : Cls} {st : Nat} {p : Bool} {r} : keySlot env ⟨cl, .opaque st p⟩ ≠ .ok (some r) := by
  intro h
  simp only [keySlot, reprKey] at h
  split at h <;> simp at h

/-- **C13.**  If dump returned, every object without a loader in it can be pickled: otherwise dump raises. -/
theorem C13_unpicklable {a : DumpArgs} {s s' : Session} (h : GoodDump P a s s') {c : Addr} {cl : Cls} {st : Nat} {p : Bool}
    (hr : Reach a.heap a.obj c) (hc : a.heap[c]? = some ⟨cl, .opaque st p⟩) : p = true := by
  rcases h.part hr hc with ⟨H', at', od, subs, _, hh⟩ | ⟨name, kbt, hk, _⟩ | ⟨v, hv⟩
  · have hfn : (expected a.env cl).2.fn ≠ .none := by
      intro hfn
      have hb := expected_none hfn
      have hok := (h.graph.cls c _ hc).2
      cases cl <;> first
        | (simp [ObjOk, NativeOk] at hok; done)
        | (simp only [ObjOk, UserOk] at hok
           have := hok.2
           unfold expected at this hfn
           split at this
           · simp at this
           · next he => simp only [he] at hfn; simp at hfn)
        | (simp [expected, Cls.mro, firstStd, stdReg] at hfn; done)
        | (rw [expected_native a.env rfl (by simp)] at hfn; simp at hfn)
    simp only at hh
    generalize (expected a.env cl).2.fn = fn at hh hfn
    cases hh with
    | pickled hv => simp at hv; exact hv.2
    | none => simp at hfn
    | rowsNil hr | rows hr | oseq hr => cases hr <;> simp_all
    | _ => simp_all
  · exact absurd hk keySlot_opaque
  · cases cl <;> simp [exactNum] at hv

/-- how an object is stored through pickle -/
def storePickled (c : DCtx) (o : Obj) (parent : NodeId) (name : PyStr) : DM (NodeId × Subs × Bool) := do
  let n ← createPickled c o parent name
  pure (n, [], true)

/-- **C13.**  In every registration state: an object for which no class of its method resolution order has a loader is
stored through pickle, without type information. -/
theorem C13_no_loader (c : DCtx) (o : Obj) (parent : NodeId) (name : PyStr) (s : DState) (r : Registry)
    (h : loadLoader c.env c.mgr o.cls none s.reg = (.ok (.object, ⟨.pickled, "pickle", true⟩), r)) :
    dumpCreate c o parent name s = storePickled c o parent name { s with reg := r } := by
  unfold dumpCreate
  rw [M.bind_of_ok (show onReg (loadLoader c.env c.mgr o.cls none) s = (.ok (.object, ⟨.pickled, "pickle", true⟩), { s with reg := r }) by
    simp only [onReg, h])]
  simp only [M.bind_apply, M.get_apply, M.attempt_apply, createFn, leaf, storePickled]
  have hne : ∀ e s', createPickled c o parent name { s with reg := r } = (.error e, s') → e ≠ .notHicklable ∧ s' = { s with reg := r } := by
    intro e s' he
    unfold createPickled at he
    cases hv : o.val <;> simp only [hv, M.throw_apply, Prod.mk.injEq, Except.error.injEq] at he <;> first
      | (obtain ⟨rfl, rfl⟩ := he; exact ⟨by decide, rfl⟩)
      | (next st p =>
        cases p <;> simp only [M.throw_apply, Prod.mk.injEq, Except.error.injEq] at he
        · obtain ⟨rfl, rfl⟩ := he; exact ⟨by decide, rfl⟩
        · unfold mkDset at he
          split at he
          · next e' hk =>
            simp at he; obtain ⟨rfl, rfl⟩ := he
            refine ⟨?_, rfl⟩
            rintro rfl
            exact checkKw_err hk rfl
          · split at he
            · next e' hk =>
              simp at he; obtain ⟨rfl, rfl⟩ := he
              refine ⟨?_, rfl⟩
              rintro rfl
              unfold Store.create at hk; repeat' (first | split at hk | simp at hk)
            · simp at he)
  cases hx : createPickled c o parent name { s with reg := r } with
  | mk x s' =>
    cases x with
    | ok n => simp [storeType, M.bind_apply]
    | error e => simp [(hne e s' hx).1, (hne e s' hx).2]

/-- **C13.**  In every registration state: an object whose loader declares it not hicklable is stored in the same way. -/
theorem C13_not_hicklable (c : DCtx) (o : Obj) (parent : NodeId) (name : PyStr) (s : DState) (r : Registry) (cls : Cls) (base : String)
    (h : loadLoader c.env c.mgr o.cls none s.reg = (.ok (cls, ⟨.refusing, base, true⟩), r)) :
    dumpCreate c o parent name s = storePickled c o parent name { s with reg := r } := by
  unfold dumpCreate
  rw [M.bind_of_ok (show onReg (loadLoader c.env c.mgr o.cls none) s = (.ok (cls, ⟨.refusing, base, true⟩), { s with reg := r }) by
    simp only [onReg, h])]
  simp only [M.bind_apply, M.get_apply, M.attempt_apply, createFn, M.throw_apply, storePickled, if_true]

/-- object 7 of `Ex.heap` is pickled -/
example : Loads (fun _ => True) Ex.env Ex.file1.store [ps "run", ps "a"] fun L b => ∃ x : Addr, follow L b [.item 2] = some x ∧ L[x]? = some ⟨.user 0, .opaque 5 true⟩ :=
  C13_pickled (π := [.item 2]) (c := 7) Ex.good (by decide +kernel) rfl

/-- an object that can not be pickled -/
example : Ex.raised (dumpTop (Ex.args [⟨.user 0, .opaque 5 false⟩] 0) Ex.file0).1 = some .picklingError := by decide +kernel

/-- an environment in which a loader module declares class 0 not hicklable -/
def C13.env : Env := { Ex.env with mods := fun p => if p = "shapes" then some ⟨[{ cls := .user 0, base := "point", dump := some .refusing }], []⟩ else none }

/-- the object is dumped and comes back -/
example : (Ex.roundTrip C13.env [⟨.user 0, .opaque 5 true⟩] 0) = some ([⟨.tuple, .seq []⟩, ⟨.user 0, .opaque 5 true⟩], 1) := by decide +kernel

/-- both hypotheses on `loadLoader` are met right after `import hickle` -/
example : (match loadLoader C13.env ⟨[none]⟩ (.user 0) none Registry.initial with
    | (.ok (c, e), _) => decide (c = .user 0 ∧ e = ⟨.refusing, "point", true⟩) | _ => false) = true ∧
  (match loadLoader Ex.env ⟨[none]⟩ (.user 0) none Registry.initial with
    | (.ok (c, e), _) => decide (c = .object ∧ e = ⟨.pickled, "pickle", true⟩) | _ => false) = true := by decide +kernel

end Verif
