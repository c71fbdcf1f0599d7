import Verif.Props.C45
import Verif.Props.C30
/-!
# C48 A load that is interrupted changes nothing and never returns part of the data

`Prog.loadF all es a` is the load `a` in single steps (`Verif/Hickle/StepLoad.lean`), hit by the events `es` (as `Prog.dumpF`, see C45).
`Prog.loadF_nil`: without events this is the load of all other theorems.  What one step calls is not cut further: h5py's `get` returns
the default when its own look-up raises `KeyError`, and such exceptions are no events here.
-/
namespace Verif
open Prog (Ev dumpF loadF)

variable {P : Nat → Prop}

/-- **C48, the value.**  Whatever is in the file and whatever exceptions hit the load: if it returns, it returns what the load returns that
is not hit, and leaves the same state.  So no exception is swallowed, and no part of an object is returned for the whole. -/
theorem C48_value {all : Bool} {es : List Ev} {a : LoadArgs} {s s' : Session} {v : Heap × Addr} (h : loadF all es a s = (.ok v, s')) :
    loadTop a s = (.ok v, s') := by
  rw [← Prog.loadF_ok (by rw [h])]
  exact h

/-- **C48, the exception.**  If h5py raises during a load, the load raises `ValueError`, as for a file that is no hickle file. -/
theorem C48_errors {es : List Ev} {a : LoadArgs} {s : Session} {e : PyErr} (h : (loadF false es a s).1 = .error e) : e = .valueError ∨ e = .unmodelled := by
  have key : Prog.wp false (Prog.lcLook a.env) (Prog.loadTop a) (fun r _ => ∀ e, r = .error e → e = .valueError ∨ e = .unmodelled) (s, { heap := loadHeap, reg := {} }) := by
    unfold Prog.loadTop
    refine Prog.wp_bind (Prog.wp_attempt (Prog.wp_mono (fun r s _ => ?_) (Prog.wp_true _ _)))
    cases r with
    | ok v => intro e h; cases h
    | error e' =>
      intro e h
      cases h
      cases e' <;> simp [wrapLoad]
  exact Prog.wp_sound _ key es e h

theorem Prog.Kept.eq {S : Store} {w : Bool} {p : List PyStr} {st : Store} (h : Prog.Kept S w p st) : st = S ∨
    (w = true ∧ ∃ g ls, S.resolve 0 p = some g ∧ S.links g = some ls ∧ Assoc.get? ls tableName = none ∧ st = withEmptyTable S g) := by
  rcases h with h | ⟨g, ls, T, h1, h2, h3, h4, h5⟩
  · exact .inl h
  · have e : (refInit Ex.env g ⟨S, true, false, false, {}⟩).2.store = st := by
      unfold refInit
      simp only [h3, h4, h5, if_true]
    refine .inr ⟨h1, g, ls, h2, h3, h4, ?_⟩
    rcases refInit_store (env := Ex.env) (g := g) (s := ⟨S, true, false, false, {}⟩) with h | ⟨_, _, h⟩
    · rw [e] at h
      have h : st = S := h
      have := congrArg List.length h
      simp only [Store.create, h3] at h5
      repeat' split at h5
      all_goals simp at h5
      rw [← h5.2] at this
      simp at this
    · exact e.symm.trans h

/-- **C48, the file (partial).**  Wherever a load is interrupted: the file is unchanged; or it is open for writing, the group has no types table,
and an empty one was added.
What is missing: that exception, which is C30's. -/
theorem C48_file_partial {a : LoadArgs} {s : Session} (hE : EnvOk P a.env) (hP : ProtOk P a.env) (hreg : RegInv P s.reg) (all : Bool) (es : List Ev) :
    (loadF all es a s).2.store = s.store ∨
    (s.writable = true ∧ ∃ g ls, s.store.resolve 0 a.path = some g ∧ s.store.links g = some ls ∧ Assoc.get? ls tableName = none ∧
      (loadF all es a s).2.store = withEmptyTable s.store g) :=
  (Prog.loadF_ends hE hP hreg all es).kept.eq

/-- **C48, again.**  After a dump that returned, let any number of loads follow, each interrupted by any exceptions at any points; if the file is
closed and opened anew between them or not.  Then load returns a copy of the dumped object. -/
theorem C48_again {a : DumpArgs} {s s' : Session} (h : GoodDump P a s s') {loads : List (Bool × List Ev × LoadArgs)}
    (hok : ∀ l ∈ loads, EnvOk P l.2.2.env ∧ ProtOk P l.2.2.env ∧ l.2.2.path = a.path) :
    Loads P a.env (runFOps (loads.map fun l => .load l.1 l.2.1 l.2.2) s').store a.path fun L b => Copy a.heap L b a.obj := by
  refine C45_rest h ?_ ?_
  · intro o ho
    obtain ⟨l, hl, rfl⟩ := List.mem_map.1 ho
    exact ⟨(hok l hl).1, (hok l hl).2.1⟩
  · intro o ho q hq
    obtain ⟨l, hl, rfl⟩ := List.mem_map.1 ho
    simp only [FOp.path, Option.some.injEq] at hq
    rw [← hq, (hok l hl).2.2]
    constructor
    · intro h
      have := h.length_le
      simp only [List.length_append, List.length_singleton] at this
      omega
    · intro h
      have := h.length_le
      simp only [List.length_append, List.length_singleton] at this
      omega

/-- **C48, the file stays usable (partial).**  If the exceptions come from h5py, and the file is open for writing or the group has a types table,
then no entry of a manager is left behind: the process is for the file in the state it was in before.
What is missing: exceptions between other statements, see `C48_violated`; and groups without a types table in a file open for reading only
(C17). -/
theorem C48_usable_partial {a : LoadArgs} {s : Session} (hE : EnvOk P a.env) (hP : ProtOk P a.env) (hreg : RegInv P s.reg) (es : List Ev)
    (ht : s.writable = true ∨ ∃ g ls, s.store.resolve 0 a.path = some g ∧ s.store.links g = some ls ∧ (Assoc.get? ls tableName).isSome = true) :
    (loadF false es a s).2 = { s with store := (loadF false es a s).2.store, reg := (loadF false es a s).2.reg } := by
  have h := Prog.loadF_ends hE hP hreg false es
  have h1 := h.ldr rfl
  have h2 := h.ref rfl ht
  have h3 := h.writable
  generalize (loadF false es a s).2 = t at *
  obtain ⟨st, w, l, r, rg⟩ := t
  simp only at h1 h2 h3
  subst h1 h2 h3
  rfl

/-! ### concrete data -/

/-- the file that holds `['a', 'b']` -/
def C48.file : Session := (dumpTop (Ex.args C45.heap 2) Ex.file0).2

/-- the load of it -/
def C48.args : LoadArgs := ⟨Ex.env, [], id, 100⟩

/-- `C48_value` and its hypothesis: this load has 37 steps.  An exception at any of them, before it or after it took effect, makes the load
raise; an exception that would come later does not come. -/
example : (List.range 37).all (fun n => decide (Ex.raised (loadF true (C45.at n .osError) C48.args C48.file).1 = some .valueError) &&
    decide (Ex.raised (loadF true (List.replicate n .go ++ [.late .osError]) C48.args C48.file).1 = some .valueError)) = true ∧
    (loadF true (C45.at 37 .osError) C48.args C48.file).1.toOption = some ([⟨.tuple, .seq []⟩, ⟨.str, .str (ps "a")⟩, ⟨.str, .str (ps "b")⟩, ⟨.list, .seq [1, 2]⟩], 3) := by
  decide +kernel

/-- `C48_errors` on concrete data: the device fails when the second item is read -/
example : Ex.raised (loadF false (C45.at 12 .osError) C48.args C48.file).1 = some .valueError := by decide +kernel

/-- `C48_file_partial`: the same load leaves the file as it was; in a file open for writing whose group has no types table (see `C30_violated`), a load
that is interrupted behind the making of the table leaves an empty one -/
example : (loadF false (C45.at 12 .osError) C48.args C48.file).2.store = C48.file.store ∧
    let d := dumpTop { Ex.dumpArgs with options := some [("Custom", true)] } Ex.file0
    (loadF true (C45.at 8 .osError) ⟨Ex.env, [ps "run", ps "a"], id, 100⟩ d.2).2.store ≠ d.2.store := by decide +kernel

/-- `C48_again` on concrete data: the object of `Ex.good`, after three loads interrupted in different ways -/
example : Loads (fun _ => True) Ex.env (runFOps ([(true, C45.at 6 .osError, ⟨Ex.env, [ps "run", ps "a"], id, 100⟩),
    (false, C45.at 11 .osError, ⟨Ex.env, [ps "run", ps "a"], List.reverse, 100⟩),
    (true, [.go, .late .runtimeError], ⟨Ex.env, [ps "run", ps "a"], id, 7⟩)].map fun l => FOp.load l.1 l.2.1 l.2.2) Ex.file1).store
    [ps "run", ps "a"] fun L b => Copy Ex.heap L b 11 := by
  refine C48_again Ex.good ?_
  intro l hl
  simp only [List.mem_cons, List.not_mem_nil, or_false] at hl
  rcases hl with rfl | rfl | rfl <;> exact ⟨Ex.envOk, Ex.protOk, rfl⟩

/-- `C48_usable_partial` on concrete data: the next load returns -/
example : Ex.isOk (loadTop C48.args (loadF false (C45.at 12 .osError) C48.args C48.file).2).1 = true := by decide +kernel

/-- **C48 is violated: exceptions between statements.**  An exception that comes when `create_manager` has made its entry and the `with` block is
not entered yet, or within one of the two `__exit__`: the entry stays.  Every further load from the open file raises `ValueError` although
nothing is wrong with the file, and every dump into it raises `LookupError`. -/
theorem C48_violated : [4, 8, 35, 36].all (fun n =>
    let s1 := (loadF true (C45.at n .osError) C48.args C48.file).2
    decide (Ex.raised (loadTop C48.args s1).1 = some .valueError) &&
    decide (Ex.raised (dumpTop { Ex.args C45.heap 2 with path := [ps "other"] } s1).1 = some .lookupError) &&
    Ex.isOk (loadTop C48.args ((FOp.reopen true).run s1)).1) = true := by decide +kernel

end Verif
