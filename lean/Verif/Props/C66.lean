import Verif.Hickle.Salvage
import Verif.Props.C28
import Verif.Props.C58
import Verif.Props.C60
/-!
# C66 What load returns can be dumped again

True of the code when every object of the file could be restored: `C66_partial`.  What `load` returns for an object whose class is
missing can not be dumped, nor can any nest of lists, tuples and dicts that holds it: `C66_recovered` says so for all of them,
`C66_violated_missing` for all files with instances of missing classes, and `C66_violated` and `C66_violated_file` show a file and what becomes of it.
-/
namespace Verif

variable {P : Nat → Prop}

/-- **C66, partial.**  What load returns after a dump can be dumped where the original was dumped.
Missing: objects whose classes have become missing (`C66_violated`); sets with more than one element, as for C60. -/
theorem C66_partial {a : DumpArgs} {s s' : Session} (h : GoodDump P a s s') (hs : SmallSets a.heap) {os} (hos : a.options = some os) :
    Loads P a.env s'.store a.path fun L b => ∀ r, Reached P r → ∃ s2, dumpTop { a with heap := L, obj := b } { s with reg := r } = (.ok (), s2) :=
  (C60_again_partial h hs hos).imp fun _ _ hl r hr => ⟨_, Prod.ext (hl r hr).1 rfl⟩

/-- a dict with keys of several kinds, a list of numbers of different types, a string that occurs twice -/
example : (∃ s', GoodDump (fun _ => True) (Ex.args C60.heap 8) Ex.file0 s') ∧ SmallSets C60.heap ∧ (Ex.args C60.heap 8).options = some [] := by
  refine ⟨Ex.good_of (by decide +kernel), ?_, rfl⟩
  intro c o items hc ho
  have : ∀ o ∈ C60.heap, ∀ items, o.val = .set items → items.length ≤ 1 := by
    intro o hm items
    simp only [C60.heap, List.mem_cons, List.not_mem_nil, or_false] at hm
    rcases hm with rfl | rfl | rfl | rfl | rfl | rfl | rfl | rfl | rfl <;> intro h <;> cases h
  exact this o (List.mem_of_getElem? hc) items ho

/-- **C66 is violated, in general.**  No dump returns of an object that is a `RecoveredGroup` or `RecoveredDataset` or holds one as an
item or value at any depth of lists, tuples and dicts, shared or not, whatever else it holds, whatever file, path and keyword arguments are given. -/
theorem C66_recovered {a : DumpArgs} {s : Session} (hE : EnvOk P a.env) (hP : ProtOk P a.env) (hs : FileOk P s) (ho : OptsOk a s.store)
    {b : Addr} (hb : HeldIn a.heap a.obj b) {o : Obj} (hbo : a.heap[b]? = some o) (hc : o.cls = .recGroup ∨ o.cls = .recData) :
    ∃ e s', dumpTop a s = (.error e, s') := by
  cases h : dumpTop a s with
  | mk x s' =>
    cases x with
    | error e => exact ⟨e, s', rfl⟩
    | ok u => exact absurd hc (dumpTop_salvaged hE hP hs.reg hs.tree ho h hb hbo)

/-- a step through a list, tuple or dict is a step through its copy -/
theorem RecRel.holds {env : Env} {H L : Heap} {R : Addr → Addr → Prop} {N : DT → Addr → Addr → Prop} {Q : Addr → Addr → Prop} (h : RecRel env H L R N Q)
    {x a b : Addr} (hx : R x a) (hb : Holds H a b) : ∃ y, Holds L x y ∧ (R y b ∨ (∃ d, N d y b) ∨ Q y b) := by
  obtain ⟨o, ho, hc⟩ := hb
  obtain ⟨p, o', e1, e2, e3⟩ := h.1 x a hx
  rw [ho] at e1; simp only [Option.some.injEq] at e1; subst e1
  have hn : o.lost env = false := by
    unfold Obj.lost
    rcases hc with ⟨hc | hc, _⟩ | ⟨hc, _⟩ <;> rw [hc]
  rcases e3 with ⟨_, hcl, hv⟩ | ⟨e3, _⟩
  · rcases hc with ⟨hc, l, hl, hb⟩ | ⟨hc, es, k, hl, hb⟩
    · obtain ⟨i, hi⟩ := List.getElem?_of_mem hb
      rcases hv.step (.item i) with ⟨_, g2⟩ | ⟨y, z, g1, g2, g3⟩
      · rw [hl] at g2; simp [Val.step, hi] at g2
      · rw [hl] at g2; simp only [Val.step, hi, Option.some.injEq] at g2; subst g2
        rw [hl] at hv
        generalize hw : o'.val = w at hv g1
        cases hv with
        | atom q => simp [Val.isAtom] at q
        | seq q => exact ⟨y, ⟨o', e2, .inl ⟨by rw [hcl]; exact hc, _, hw, List.mem_of_getElem? g1⟩⟩, g3⟩
    · obtain ⟨i, hi⟩ := List.getElem?_of_mem hb
      rcases hv.step (.value i) with ⟨_, g2⟩ | ⟨y, z, g1, g2, g3⟩
      · rw [hl] at g2; simp [Val.step, hi] at g2
      · rw [hl] at g2; simp only [Val.step, hi, Option.map_some, Option.some.injEq] at g2; subst g2
        rw [hl] at hv
        generalize hw : o'.val = w at hv g1
        cases hv with
        | atom q => simp [Val.isAtom] at q
        | @dict es' _ q =>
          simp only [Val.step, Option.map_eq_some_iff] at g1
          obtain ⟨⟨k', v'⟩, g1, rfl⟩ := g1
          exact ⟨v', ⟨o', e2, .inr ⟨by rw [hcl]; exact hc, _, k', hw, List.mem_of_getElem? g1⟩⟩, g3⟩
  · rw [hn] at e3; simp at e3

/-- an instance of a missing class inside of lists, tuples and dicts is inside of the loaded ones as what was recovered -/
theorem RecRel.held {env : Env} {H L : Heap} {R : Addr → Addr → Prop} {N : DT → Addr → Addr → Prop} {Q : Addr → Addr → Prop} (h : RecRel env H L R N Q)
    {a c : Addr} (hc : HeldIn H a c) {o : Obj} (ho : H[c]? = some o) (hl : o.lost env = true) :
    ∀ {x}, (R x a ∨ (∃ d, N d x a) ∨ Q x a) → ∃ y o', HeldIn L x y ∧ L[y]? = some o' ∧ (o'.cls = .recGroup ∨ o'.cls = .recData) := by
  have hcl : ∃ k, o.cls = .user k := by
    obtain ⟨cl, v⟩ := o
    cases cl <;> first | exact ⟨_, rfl⟩ | simp [Obj.lost] at hl
  obtain ⟨k, hk⟩ := hcl
  induction hc with
  | here c =>
    rintro x (e2 | ⟨d, e2⟩ | e2)
    · obtain ⟨p, o', g1, g2, g3⟩ := h.1 x c e2
      rw [ho] at g1; simp only [Option.some.injEq] at g1; subst g1
      rcases g3 with ⟨g3, _⟩ | ⟨_, g3⟩
      · rw [hl] at g3; simp at g3
      · refine ⟨x, o', .here x, g2, ?_⟩
        cases g3 with
        | pickled _ q => rw [q]; exact .inr rfl
        | data _ _ q => rw [q]; exact .inr rfl
        | group _ _ q => rw [q]; exact .inl rfl
    · obtain ⟨p, o', g1, g2, v, w, g3, _⟩ := h.2.1 d x c e2
      rw [ho] at g1; simp only [Option.some.injEq] at g1; subst g1
      simp [exactNum, hk] at g3
    · obtain ⟨p, g1, _, g3⟩ := h.2.2.1 x c e2
      rw [ho] at g1; simp only [Option.some.injEq] at g1; subst g1
      obtain ⟨cl, v⟩ := o
      simp only at hk; subst hk
      simp [Obj.nameKey, Obj.plainKey] at g3
  | @under a b c k1 k2 ih =>
    have hs := k1
    rintro x (e2 | ⟨d, e2⟩ | e2)
    · obtain ⟨y, g1, g2⟩ := h.holds e2 k1
      obtain ⟨z, o', g3, g4, g5⟩ := ih ho g2
      exact ⟨z, o', .under g1 g3, g4, g5⟩
    · obtain ⟨p, o', g1, g2, v, w, g3, _⟩ := h.2.1 d x a e2
      exact absurd hs.sought (num_not_sought g1 g3)
    · obtain ⟨p, g1, _, g3⟩ := h.2.2.1 x a e2
      obtain ⟨p', q1, q2⟩ := hs
      rw [g1] at q1; cases q1
      obtain ⟨cl, v⟩ := p
      rcases q2 with ⟨rfl | rfl, l, rfl, _⟩ | ⟨rfl, l, _, rfl, _⟩ <;> simp [Obj.nameKey, Obj.plainKey] at g3

/-- **C66 is violated by all files with an instance of a missing class** inside of lists, tuples and dicts: load returns, and no dump of
what it has returned does, to whatever file, path and with whatever keyword arguments, in whatever process. -/
theorem C66_violated_missing {gone : Nat → Bool} {a : DumpArgs} {s s' : Session} (h : RecDump P gone a s s') {c : Addr} {o : Obj}
    (hc : HeldIn a.heap a.obj c) (ho : a.heap[c]? = some o) (hl : o.lost (a.env.without gone) = true) :
    Loads P (a.env.without gone) s'.store a.path fun L b =>
      ∀ (a2 : DumpArgs) (t : Session), EnvOk P a2.env → ProtOk P a2.env → FileOk P t → OptsOk a2 t.store → a2.heap = L → a2.obj = b → ∃ e t', dumpTop a2 t = (.error e, t') := by
  refine (C28_partial h).imp fun L b hb a2 t k1 k2 k3 k4 k5 k6 => ?_
  obtain ⟨R, N, Q, h0, hr⟩ := hb
  have hr : RecRel (a.env.without gone) a.heap L R N Q := hr
  obtain ⟨y, o', g1, g2, g3⟩ := hr.held hc ho hl (.inl h0)
  subst k5; subst k6
  exact C66_recovered k1 k2 k3 k4 g1 g2 g3

/-- the list of `Ex.heap` holds an instance of a missing subclass of `list` -/
example : Loads (fun _ => True) Ex.lostEnv Ex.file1.store [ps "run", ps "a"] fun L b =>
    ∀ (a2 : DumpArgs) (t : Session), EnvOk (fun _ => True) a2.env → ProtOk (fun _ => True) a2.env → FileOk (fun _ => True) t → OptsOk a2 t.store →
      a2.heap = L → a2.obj = b → ∃ e t', dumpTop a2 t = (.error e, t') :=
  C66_violated_missing (c := 10) Ex.lost (.under (b := 10) ⟨_, rfl, .inl ⟨.inl rfl, _, rfl, by simp⟩⟩ (.here _)) rfl rfl

namespace C66

/-- `['a', {'a': x}]` with an instance `x` of a class of the user -/
def heap : Heap := [⟨.str, .str (ps "a")⟩, ⟨.user 0, .opaque 5 true⟩, ⟨.dict, .dict [(0, 1)]⟩, ⟨.list, .seq [0, 2]⟩]

/-- dumped with the class, loaded without it -/
def loaded : Option (Heap × Addr) :=
  (loadTop ⟨Ex.lostEnv, [], id, 100⟩ (dumpTop (Ex.args heap 3) Ex.file0).2).1.toOption

/-- what load makes of the list: the dict holds the pickle string of `x` -/
def recovered : Heap := [⟨.tuple, .seq []⟩, ⟨.str, .str (ps "a")⟩,
  ⟨.recData, .recData (.pickleObj (.user 0) 5) [("key_base_type", .bytes "str"), ("key_idx", .int 0)]⟩,
  ⟨.str, .str (ps "a")⟩, ⟨.dict, .dict [(3, 2)]⟩, ⟨.list, .seq [1, 4]⟩]

/-- `x = load('d.h5')` where the class is missing and then `dump(x, 'd.h5', mode)`: what the second dump raised, and what a process that
has the class loads from the file before and after it -/
def trial (mode : PyStr) : Option (Heap × Addr) × Option PyErr × Option (Heap × Addr) :=
  let w1 := (dumpFile (Ex.args heap 3) (.name (ps "d.h5")) (ps "w") (ps "/") .absent {} Ex.world).2
  let w2 := match (loadFile ⟨Ex.lostEnv, [], id, 100⟩ (.name (ps "d.h5")) (ps "/") .absent {} w1).1 with
    | .ok (L, b) => dumpFile (Ex.args L b) (.name (ps "d.h5")) mode (ps "/") .absent {} w1
    | .error e => (.error e, w1)
  ((C58.load w1).toOption, (match w2.1 with | .ok _ => none | .error e => some e), (C58.load w2.2).toOption)

end C66

/-- **C66 is violated.**  `['a', {'a': x}]` is dumped, then loaded where the class of `x` is missing.  Load returns, with what it could
recover of `x`; dump raises `RuntimeError` on it, with the class and without. -/
theorem C66_violated : C66.loaded = some (C66.recovered, 5) ∧
    Ex.raised (dumpTop (Ex.args C66.recovered 5) Ex.file0).1 = some .runtimeError ∧
    Ex.raised (dumpTop { Ex.args C66.recovered 5 with env := Ex.lostEnv } Ex.file0).1 = some .runtimeError :=
  ⟨by decide +kernel, by decide +kernel, by decide +kernel⟩

/-- the hypotheses of `C66_recovered` are met by what was loaded -/
example : ∃ e s', dumpTop (Ex.args C66.recovered 5) Ex.file0 = (.error e, s') := by
  refine C66_recovered (P := fun _ => True) (b := 2) Ex.envOk Ex.protOk Ex.file0_ok ⟨?_, ?_⟩ ?_ rfl (.inr rfl)
  · intro os h; cases h; simp
  · intro g at' h1 h2 o ho
    cases h1; cases h2; simp [attrOptions, attrItems] at ho
  · exact .under (b := 4) ⟨_, rfl, .inl ⟨.inl rfl, _, rfl, by simp⟩⟩ (.under (b := 2) ⟨_, rfl, .inr ⟨rfl, _, 3, rfl, by simp⟩⟩ (.here _))

/-- a loaded set with the string `'x'`, the number 5 and the bytes `b'a'`, in the order of the file and as a process may enumerate it that gives
strings and bytes other hashes -/
def C66.set (swap : Bool) : Heap :=
  [⟨.tuple, .seq []⟩, ⟨.str, .str (ps "x")⟩, ⟨.int, .int 5⟩, ⟨.bytes, .bytes [97]⟩, ⟨.set, .set (if swap then [3, 2, 1] else [1, 2, 3])⟩]

/-- **C66 is violated** by sets, depending on the order in which they are enumerated.  `{'x', 5, b'a'}` is dumped by a process that enumerates it in this
order, and loaded; dumped by a process that enumerates it in the reverse order it raises `TypeError`. -/
theorem C66_violated_order :
    (loadTop ⟨Ex.env, [], id, 100⟩ (dumpTop (Ex.args [⟨.str, .str (ps "x")⟩, ⟨.int, .int 5⟩, ⟨.bytes, .bytes [97]⟩, ⟨.set, .set [0, 1, 2]⟩] 3) Ex.file0).2).1.toOption = some (C66.set false, 4) ∧
    Ex.isOk (dumpTop (Ex.args (C66.set false) 4) Ex.file0).1 = true ∧
    Ex.raised (dumpTop (Ex.args (C66.set true) 4) Ex.file0).1 = some .typeError := ⟨by decide +kernel, by decide +kernel, by decide +kernel⟩

/-- **C66 is violated**, and data is lost.  `dump(load('d.h5'), 'd.h5')` where the class is missing: the dump raises `RuntimeError`, and the file that
held the instance of the class now loads as `['a', {}]`, without an error, also where the class is there. -/
theorem C66_violated_file : C66.trial (ps "w") =
    (some ([⟨.tuple, .seq []⟩, ⟨.str, .str (ps "a")⟩, ⟨.user 0, .opaque 5 true⟩, ⟨.str, .str (ps "a")⟩, ⟨.dict, .dict [(3, 2)]⟩, ⟨.list, .seq [1, 4]⟩], 5),
     some .runtimeError,
     some ([⟨.tuple, .seq []⟩, ⟨.str, .str (ps "a")⟩, ⟨.dict, .dict []⟩, ⟨.list, .seq [1, 2]⟩], 3)) := by
  decide +kernel

end Verif
