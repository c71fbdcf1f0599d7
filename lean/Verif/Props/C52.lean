import Verif.Hickle.WarnNames
import Verif.Props.C28
/-!
# C52: hickle never falls back silently

Whatever `dump` cannot store by its type it stores as a pickle string, and whatever `load` cannot make an
object from it returns as raw data.  Both calls succeed; a warning is all the user gets to see.

Specification: `dumpWarns` and `loadWarns`, the calls of `warnings.warn` (in order); `pickles`, the classes of
the objects a file holds as pickle strings (in the order they were stored); `substs`, the number of
`RecoveredDataset`s and `RecoveredGroup`s among the objects of the program.
-/
namespace Verif.Warnings

/-- the warnings of one call of `dump` -/
def dumpWarns (a : DumpArgs) (s : Session) : List Warn := (dumpW a (s, [])).2.2

/-- the warnings of one call of `load` -/
def loadWarns (a : LoadArgs) (s : Session) : List Warn := (loadW a (s, [])).2.2

/-- **C52, `dump`.**  If `dump` returns, it has given one warning for every object it stored as a pickle string, naming the class
of the object, in the order of the file; and no other warning of this kind. -/
theorem C52_dump (a : DumpArgs) (s s' : Session) (h : dumpTop a s = (.ok (), s')) :
    ∃ new, pickles s'.store = pickles s.store ++ new ∧ dumpWarns a s = new.map .serialized := by
  obtain ⟨h1, h2⟩ := dumpW_erases a s []
  obtain ⟨new, said, h3, h4, _, h5⟩ := dumpW_tells a s []
  rw [h] at h1 h2
  refine ⟨new, ?_, ?_⟩
  · rw [← h3]; exact congrArg (fun x : Session => pickles x.store) h2.symm
  · rw [h5 ⟨(), h1⟩]; simpa [dumpWarns] using h4

/-- **C52, `dump` that fails.**  Also then there is no pickle string in the file the user was not warned of. -/
theorem C52_dump_failed (a : DumpArgs) (s : Session) :
    ∃ new said, pickles (dumpTop a s).2.store = pickles s.store ++ new ∧ dumpWarns a s = said.map .serialized ∧ new.Sublist said := by
  obtain ⟨h1, h2⟩ := dumpW_erases a s []
  obtain ⟨new, said, h3, h4, h5, _⟩ := dumpW_tells a s []
  refine ⟨new, said, ?_, by simpa [dumpWarns] using h4, h5⟩
  rw [← h3, ← h2]

/-- **C52, `load`, partial.**  If `load` returns and the classes of all pickled objects are there, it has given exactly as many
warnings as there are substitutes among the objects it made.  Missing: pickle strings of classes that are not
there, see `C52_violated_pickle`; the text of the warnings, see `C52_violated_name`. -/
theorem C52_load_partial (a : LoadArgs) (s s' : Session) (H : Heap) (b : Addr) (h : loadTop a s = (.ok (H, b), s'))
    (hp : ∀ c ∈ pickles s.store, clsImportable a.env c = true) : (loadWarns a s).length = substs H := by
  obtain ⟨h1, _⟩ := loadW_erases a s []
  rw [h] at h1
  have := loadW_accounts a hp s [] rfl H b h1
  simpa [loadWarns] using this

/-- a load that gives no warning returns the objects themselves: nothing in it is a substitute -/
theorem C52_silent_partial (a : LoadArgs) (s s' : Session) (H : Heap) (b : Addr) (h : loadTop a s = (.ok (H, b), s'))
    (hp : ∀ c ∈ pickles s.store, clsImportable a.env c = true) (hw : loadWarns a s = []) : ∀ o ∈ H, isSubst o = false := by
  have h1 := C52_load_partial a s s' H b h hp
  rw [hw] at h1
  have h1 : List.countP isSubst H = 0 := h1.symm
  rw [List.countP_eq_zero] at h1
  exact fun o ho => by simpa using h1 o ho

/-- **C52, the text, partial.**  Every warning of `load`, also of one that fails, gives the name of a node of the file.  If the
node is a dataset with an entry in the table of types, the loader that is named is the one of the entry: `entryLoader`
follows the references in the file.  Missing: groups, see `C52_violated_name`. -/
theorem C52_text_partial (a : LoadArgs) (s : Session) : ∀ w ∈ loadWarns a s, ∃ nd ∈ (loadTop a s).2.store, ∃ loader, w = .recovered loader nd.name ∧
    (nd.isGroup = false → ∀ e, entryOf nd = some e → entryLoader (loadTop a s).2.store e = some loader) := by
  intro w hw
  have h := loadW_names a s w hw
  rw [(loadW_erases a s []).2] at h
  exact h

/-! ### examples -/

/-- a list with a `Point` (no loader), a `MyList` (a missing class later on) and once more the first `Point` -/
def C52.heap : Heap := [⟨.user 0, .opaque 5 true⟩, ⟨.str, .str (ps "a")⟩, ⟨.user 1, .seq [1]⟩, ⟨.user 0, .opaque 7 true⟩, ⟨.list, .seq [0, 2, 0, 3]⟩]

/-- the file -/
def C52.file : Session := (dumpTop (Ex.args C52.heap 4) Ex.file0).2

theorem C52.dumped : dumpTop (Ex.args C52.heap 4) Ex.file0 = (.ok (), C52.file) := by
  obtain ⟨⟨⟩, h⟩ := Ex.eq_of_isOk (r := dumpTop (Ex.args C52.heap 4) Ex.file0) (by decide +kernel)
  exact h

example : dumpWarns (Ex.args C52.heap 4) Ex.file0 = [.serialized (.user 0), .serialized (.user 0)] := by decide +kernel
example : pickles C52.file.store = [.user 0, .user 0] := by decide +kernel
example : ∃ new, pickles C52.file.store = pickles Ex.file0.store ++ new ∧ dumpWarns (Ex.args C52.heap 4) Ex.file0 = new.map .serialized :=
  C52_dump _ _ _ C52.dumped

/-- a program in which `Point` is there and `MyList` is not -/
def C52.env : Env := { Ex.env with u := fun k => { Ex.userCls k with importable := k == 0 } }

/-- the objects of a load and its warnings -/
def C52.run (env : Env) (s : Session) : Option (Nat × List Warn) :=
  match (loadTop ⟨env, [], id, 100⟩ s).1 with
  | .ok r => some (substs r.1, loadWarns ⟨env, [], id, 100⟩ s)
  | .error _ => none

theorem C52.of_run {env : Env} {s : Session} {n : Nat} {l : List Warn} (h : C52.run env s = some (n, l)) :
    ∃ H b s', loadTop ⟨env, [], id, 100⟩ s = (.ok (H, b), s') ∧ substs H = n ∧ loadWarns ⟨env, [], id, 100⟩ s = l := by
  unfold C52.run at h
  cases hr : loadTop ⟨env, [], id, 100⟩ s with
  | mk r s' =>
    rw [hr] at h
    cases r with
    | error e => simp at h
    | ok r =>
      simp only [Option.some.injEq, Prod.mk.injEq] at h
      exact ⟨r.1, r.2, s', rfl, h.1, h.2⟩

/-- the hypotheses of `C52_load_partial` hold for it: one warning, one substitute -/
example : ∃ H b s', loadTop ⟨C52.env, [], id, 100⟩ C52.file = (.ok (H, b), s') ∧ (∀ c ∈ pickles C52.file.store, clsImportable C52.env c = true) ∧
    substs H = 1 ∧ (loadWarns ⟨C52.env, [], id, 100⟩ C52.file).length = 1 := by
  obtain ⟨H, b, s', h1, h2, _⟩ := C52.of_run (env := C52.env) (s := C52.file) (n := 1) (l := [.recovered "!recover!" (ps "data1")]) (by decide +kernel)
  have hp : ∀ c ∈ pickles C52.file.store, clsImportable C52.env c = true := by decide +kernel
  exact ⟨H, b, s', h1, hp, h2, (C52_load_partial _ _ _ _ _ h1 hp).trans h2⟩

/-- with all classes there is no warning and no substitute -/
example : ∃ H b s', loadTop ⟨Ex.env, [], id, 100⟩ C52.file = (.ok (H, b), s') ∧ ∀ o ∈ H, isSubst o = false := by
  obtain ⟨H, b, s', h1, h2, h3⟩ := C52.of_run (env := Ex.env) (s := C52.file) (n := 0) (l := []) (by decide +kernel)
  exact ⟨H, b, s', h1, C52_silent_partial _ _ _ _ _ h1 (by decide +kernel) h3⟩

/-! ### counterexamples to the full property -/

/-- **C52 is violated.**  A pickled object of a class that is not there comes back as raw data, and no warning is given:
`load_pickled_data` (lookup.py:1503-1510) returns a `RecoveredDataset` without a call of `warnings.warn`. -/
theorem C52_violated_pickle : ∃ s H b s', dumpTop (Ex.args [⟨.user 0, .opaque 5 true⟩] 0) Ex.file0 = (.ok (), s) ∧
    loadTop ⟨Ex.lostEnv, [], id, 100⟩ s = (.ok (H, b), s') ∧ substs H = 1 ∧ loadWarns ⟨Ex.lostEnv, [], id, 100⟩ s = [] := by
  obtain ⟨⟨⟩, h⟩ := Ex.eq_of_isOk (r := dumpTop (Ex.args [⟨.user 0, .opaque 5 true⟩] 0) Ex.file0) (by decide +kernel)
  obtain ⟨H, b, s', h1, h2, h3⟩ := C52.of_run (env := Ex.lostEnv) (s := (dumpTop (Ex.args [⟨.user 0, .opaque 5 true⟩] 0) Ex.file0).2)
    (n := 1) (l := []) (by decide +kernel)
  exact ⟨_, H, b, s', h, h1, h2, h3⟩

/-- **C52 is violated.**  The warning for a group does not name the loader it was written with (here `list`): the text is made
before `base_type` is replaced by the one in the file (lookup.py:1547-1557), and says that a loader `!recover!` is missing. -/
theorem C52_violated_name : ∃ s H b s', dumpTop (Ex.args [⟨.str, .str (ps "a")⟩, ⟨.user 1, .seq [0]⟩] 1) Ex.file0 = (.ok (), s) ∧
    loadTop ⟨Ex.lostEnv, [], id, 100⟩ s = (.ok (H, b), s') ∧ loadWarns ⟨Ex.lostEnv, [], id, 100⟩ s = [.recovered "!recover!" (ps "data")] := by
  obtain ⟨⟨⟩, h⟩ := Ex.eq_of_isOk (r := dumpTop (Ex.args [⟨.str, .str (ps "a")⟩, ⟨.user 1, .seq [0]⟩] 1) Ex.file0) (by decide +kernel)
  obtain ⟨H, b, s', h1, _, h3⟩ := C52.of_run (env := Ex.lostEnv) (s := (dumpTop (Ex.args [⟨.str, .str (ps "a")⟩, ⟨.user 1, .seq [0]⟩] 1) Ex.file0).2)
    (n := 1) (l := [.recovered "!recover!" (ps "data")]) (by decide +kernel)
  exact ⟨_, H, b, s', h, h1, h3⟩

/-- for a dataset the loader is named: a list of numbers of a missing subclass of `list` -/
example : ∃ H b s', loadTop ⟨Ex.lostEnv, [], id, 100⟩ (dumpTop (Ex.args [⟨.int, .int 3⟩, ⟨.user 1, .seq [0]⟩] 1) Ex.file0).2 = (.ok (H, b), s') ∧
    substs H = 1 ∧ loadWarns ⟨Ex.lostEnv, [], id, 100⟩ (dumpTop (Ex.args [⟨.int, .int 3⟩, ⟨.user 1, .seq [0]⟩] 1) Ex.file0).2 = [.recovered "list" (ps "data")] :=
  C52.of_run (by decide +kernel)

/-- the node of that warning is a dataset with an entry in the table of types -/
example : ((dumpTop (Ex.args [⟨.int, .int 3⟩, ⟨.user 1, .seq [0]⟩] 1) Ex.file0).2.store.filter fun nd =>
    nd.name == ps "data" && !nd.isGroup && (entryOf nd).isSome).length = 1 := by decide +kernel

end Verif.Warnings
