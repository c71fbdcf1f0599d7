import Verif.Hickle.LoadMade
import Verif.Props.C33
/-!
# C65 Arrays come back as instances of their class

True of the code for `numpy.ndarray` and for matrices of numbers: `C65_partial`.  `C65_only` says for every file, whoever has
written it, that load makes no other arrays.  So an array of a class derived from `numpy.ndarray` never comes back as what it
was (`C65_violated_subclass`), nor does a matrix of strings or objects (`C65_violated_matrix`); `C65_violated_lost`,
`C65_violated_strings` and `C65_violated_objects` show that dump accepts them and what load returns instead.
-/
namespace Verif

variable {P : Nat → Prop}

/-- the value is that of an array of numbers, strings or objects -/
def Val.isArray : Val → Bool
  | .arr .. | .sarr .. | .oarr .. => true
  | _ => false

/-- **C65, partial.**  An array at the end of any path of an object that satisfies `GoodDump` loads as an array of the same class.
Missing: classes derived from `numpy.ndarray`, matrices of strings and of objects; `GoodDump` excludes them, see below. -/
theorem C65_partial {a : DumpArgs} {s s' : Session} (h : GoodDump P a s s') {π : List Step} {c : Addr} {cl : Cls} {v : Val}
    (hf : follow a.heap a.obj π = some c) (hc : a.heap[c]? = some ⟨cl, v⟩) (hv : v.isArray = true) :
    Loads P a.env s'.store a.path fun L b => ∃ (x : Addr) (v' : Val), follow L b π = some x ∧ L[x]? = some ⟨cl, v'⟩ ∧ v'.isArray = true := by
  cases v with
  | arr d sh data => exact (C33_numbers_partial h hf hc).imp fun L b ⟨x, h1, h2⟩ => ⟨x, _, h1, h2, rfl⟩
  | sarr w sh ss => exact (C33_strings_partial h hf hc).imp fun L b ⟨x, h1, h2⟩ => ⟨x, _, h1, h2, rfl⟩
  | oarr sh items => exact (C33_objects_partial h hf hc).imp fun L b ⟨x, xs, h1, h2, _⟩ => ⟨x, _, h1, h2, rfl⟩
  | _ => simp [Val.isArray] at hv

/-- a matrix of booleans and an array of objects in the list of `C33.heap` -/
example : ∃ s', GoodDump (fun _ => True) (Ex.args C33.heap 11) Ex.file0 s' ∧
    (Loads (fun _ => True) Ex.env s'.store [] fun L b => ∃ (x : Addr) (v' : Val), follow L b [.item 2] = some x ∧ L[x]? = some ⟨.matrix, v'⟩ ∧ v'.isArray = true) ∧
    Loads (fun _ => True) Ex.env s'.store [] fun L b => ∃ (x : Addr) (v' : Val), follow L b [.item 5] = some x ∧ L[x]? = some ⟨.ndarray, v'⟩ ∧ v'.isArray = true := by
  obtain ⟨s', h⟩ := Ex.good_of (H := C33.heap) (obj := 11) (by decide +kernel)
  exact ⟨s', h, C65_partial h (π := [.item 2]) rfl rfl rfl, C65_partial h (π := [.item 5]) rfl rfl rfl⟩

/-- **C65, what load can return.**  Every load that returns, whatever is in the file and whatever was done before: an array of numbers
is an instance of `numpy.ndarray` or of `numpy.matrix`, an array of strings or objects of `numpy.ndarray`.  An instance of another
class has come from a call of the class or out of a pickle string. -/
theorem C65_only {a : LoadArgs} {s s' : Session} {L : Heap} {b : Addr} (h : loadTop a s = (.ok (L, b), s')) {x : Addr} {cl : Cls} {v : Val}
    (hx : L[x]? = some ⟨cl, v⟩) (hv : v.isArray = true) :
    cl = .ndarray ∨ (cl = .matrix ∧ ∃ d sh data, v = .arr d sh data) ∨ ∃ k arg, cl = .user k ∧ (a.env.u k).ctor arg = .ok v := by
  have hm := loadTop_made h _ (List.mem_of_getElem? hx)
  cases cl with
  | user k =>
    rcases hm with ⟨arg, hm⟩ | ⟨st, rfl⟩
    · exact .inr (.inr ⟨k, arg, rfl, hm⟩)
    · simp [Val.isArray] at hv
  | _ =>
    cases v with
    | arr d sh data => rcases hm with hm | hm <;> first | exact .inl hm | exact .inr (.inl ⟨hm, _, _, _, rfl⟩)
    | sarr w sh ss => exact .inl hm
    | oarr sh items => exact .inl hm
    | _ => simp [Val.isArray] at hv

/-- **C65 is violated by every class derived from `numpy.ndarray`.**  Load does not call such a class (`load_ndarray_dataset`,
load_numpy.py:236-241, calls only `numpy.matrix`; here: calls of the class from a list, a set, a dict or text give no array).
Whatever is in the file, no load returns an array of that class. -/
theorem C65_violated_subclass {a : LoadArgs} {s s' : Session} {L : Heap} {b : Addr} (h : loadTop a s = (.ok (L, b), s')) {k : Nat}
    (hk : ∀ arg v, (a.env.u k).ctor arg = .ok v → v.isArray = false) {x : Addr} {v : Val} (hx : L[x]? = some ⟨.user k, v⟩) : v.isArray = false := by
  cases hv : v.isArray with
  | false => rfl
  | true =>
    rcases C65_only h hx hv with hc | ⟨hc, _⟩ | ⟨k', arg, hc, he⟩
    · simp at hc
    · simp at hc
    · simp only [Cls.user.injEq] at hc
      subst hc
      rw [hk arg v he] at hv
      simp at hv

/-- **C65 is violated by every matrix of strings or objects.**  Whatever is in the file, no load returns one. -/
theorem C65_violated_matrix {a : LoadArgs} {s s' : Session} {L : Heap} {b : Addr} (h : loadTop a s = (.ok (L, b), s')) {x : Addr} :
    (∀ w sh ss, L[x]? ≠ some ⟨.matrix, .sarr w sh ss⟩) ∧ ∀ sh items, L[x]? ≠ some ⟨.matrix, .oarr sh items⟩ := by
  refine ⟨fun w sh ss hx => ?_, fun sh items hx => ?_⟩ <;>
  rcases C65_only h hx rfl with hc | ⟨_, d, sh', data, hv⟩ | ⟨k', arg, hc, _⟩ <;> first | (simp at hc; done) | (simp at hv; done)

/-- `class Signal(numpy.ndarray)` of a package without a loader module -/
def C65.env : Env := { Ex.env with u := fun _ =>
  { name := "Signal", origin := .pkg "shapes", bases := [.ndarray, .object], picklable := true, importable := true, ctor := fun _ => .error .typeError } }

/-- the class has the property `C65_violated_subclass` asks for -/
example : ∀ arg v, (C65.env.u 0).ctor arg = .ok v → v.isArray = false := fun _ _ h => by cases h

/-- **C65 is violated.**  A `Signal` of two numbers: dump returns, load returns a `numpy.ndarray` of these numbers. -/
theorem C65_violated_lost : ∃ s' s'', dumpTop { env := C65.env, heap := [⟨.user 0, .arr .int64 [2] [.i 1, .i 2]⟩], obj := 0, path := [], fuel := 100 } Ex.file0 =
      (.ok (), s') ∧ loadTop ⟨C65.env, [], id, 100⟩ s' = (.ok ([⟨.tuple, .seq []⟩, ⟨.ndarray, .arr .int64 [2] [.i 1, .i 2]⟩], 1), s'') :=
  Ex.of_roundTrip (env := C65.env) (by decide +kernel)

/-- **C65 is violated.**  `numpy.matrix([['a', 'bc']])`: dump returns, load returns a `RecoveredGroup`, because a matrix that is stored as a
group has no container class (load_numpy.py:339). -/
theorem C65_violated_strings : ∃ s' s'' L b v, dumpTop (Ex.args [⟨.matrix, .sarr 2 [1, 2] [ps "a", ps "bc"]⟩] 0) Ex.file0 = (.ok (), s') ∧
    loadTop ⟨Ex.env, [], id, 100⟩ s' = (.ok (L, b), s'') ∧ L[b]? = some ⟨.recGroup, v⟩ := by
  have h : ∃ r v, Ex.roundTrip Ex.env [⟨.matrix, .sarr 2 [1, 2] [ps "a", ps "bc"]⟩] 0 = some r ∧ r.1[r.2]? = some ⟨.recGroup, v⟩ :=
    ⟨(Ex.roundTrip Ex.env [⟨.matrix, .sarr 2 [1, 2] [ps "a", ps "bc"]⟩] 0).getD ([], 0),
      (((Ex.roundTrip Ex.env [⟨.matrix, .sarr 2 [1, 2] [ps "a", ps "bc"]⟩] 0).getD ([], 0)).1[4]?.getD (Obj.mk .noneType .none)).val,
      by decide +kernel, by decide +kernel⟩
  obtain ⟨⟨L, b⟩, v, h1, h2⟩ := h
  obtain ⟨s', s'', e1, e2⟩ := Ex.of_roundTrip h1
  exact ⟨s', s'', L, b, v, e1, e2, h2⟩

/-- **C65 is violated.**  `numpy.matrix([[None]])` of dtype `object`: dump returns, load returns a `RecoveredGroup`. -/
theorem C65_violated_objects : ∃ s' s'' L b v, dumpTop (Ex.args [⟨.noneType, .none⟩, ⟨.matrix, .oarr [1, 1] [0]⟩] 1) Ex.file0 = (.ok (), s') ∧
    loadTop ⟨Ex.env, [], id, 100⟩ s' = (.ok (L, b), s'') ∧ L[b]? = some ⟨.recGroup, v⟩ := by
  have h : ∃ r v, Ex.roundTrip Ex.env [⟨.noneType, .none⟩, ⟨.matrix, .oarr [1, 1] [0]⟩] 1 = some r ∧ r.1[r.2]? = some ⟨.recGroup, v⟩ :=
    ⟨(Ex.roundTrip Ex.env [⟨.noneType, .none⟩, ⟨.matrix, .oarr [1, 1] [0]⟩] 1).getD ([], 0),
      (((Ex.roundTrip Ex.env [⟨.noneType, .none⟩, ⟨.matrix, .oarr [1, 1] [0]⟩] 1).getD ([], 0)).1[3]?.getD (Obj.mk .noneType .none)).val,
      by decide +kernel, by decide +kernel⟩
  obtain ⟨⟨L, b⟩, v, h1, h2⟩ := h
  obtain ⟨s', s'', e1, e2⟩ := Ex.of_roundTrip h1
  exact ⟨s', s'', L, b, v, e1, e2, h2⟩

end Verif
