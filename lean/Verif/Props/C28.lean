import Verif.Props.Values
import Verif.Hickle.Missing
/-!
# C28 Instances of classes that are missing are recovered

Specification: `RecoveredCopy` in `Verif/Hickle/Spec.lean` (does not mention dump or load).
`Env.without env gone`: the program that loads the file can not import the classes `gone`.

True of the code if no instance of a missing class is an empty list or tuple, and none is inside a set
element, a dict key or an array of objects: `C28_partial`.  The counterexamples to the full property are
`C28_violated_empty`, `C28_violated_set` and `C28_violated_key` (load raises), and `C28_violated_name` (the
loader name of pickled objects is not given).
-/
namespace Verif

variable {P : Nat → Prop}

/-- A call of `dump` that returned, of an acyclic graph that is fit for recovery when the classes `gone` are missing.
Nothing is assumed of the constructors of these. -/
structure RecDump (P : Nat → Prop) (gone : Nat → Bool) (a : DumpArgs) (s s' : Session) : Prop where
  env : EnvOk P a.env
  prot : ProtOk P a.env
  file : FileOk P s
  graph : GoodGraph P (a.env.without gone) a.heap
  acyclic : ∃ rk, Ranked a.heap rk
  obj : a.obj < a.heap.length
  opts : OptsOk a s.store
  returns : dumpTop a s = (.ok (), s')

theorem RecDump.stored {gone : Nat → Bool} {a : DumpArgs} {s s' : Session} (h : RecDump P gone a s s') : Stored a.env s'.store a.path a.heap a.obj :=
  dumpTop_stored h.env h.prot h.file.reg h.file.tree (fun x o hx => (h.graph.cls x o hx).before) h.opts h.returns

/-- **C28, partial.**  If `dump` returned, then in every program, whatever classes it can not import, `load` returns: instances
of missing classes are recovered with all of their data, members, attributes and their loader name; everything else is a copy.
Missing: what the hypothesis `GoodGraph` excludes, see the counterexamples below. -/
theorem C28_partial {gone : Nat → Bool} {a : DumpArgs} {s s' : Session} (h : RecDump P gone a s s') :
    Loads P (a.env.without gone) s'.store a.path fun L b => RecoveredCopy (a.env.without gone) a.heap L b a.obj := by
  obtain ⟨rk, hr⟩ := h.acyclic
  have hf : FileOk P s' := by
    have := (Op.chg (o := .dump a) ⟨h.env, h.prot⟩ h.file).1
    simpa only [Op.run, h.returns] using this
  obtain ⟨d, hd⟩ := (h.stored.without gone).recovers h.env h.graph hr h.obj hf.noV3
  refine ⟨d, ?_⟩
  intro t ht hl hf hreg order hord fuel hfuel
  obtain ⟨L, b, t', e1, e2, e3, _⟩ := hd t ht hl hf hreg order hord fuel hfuel
  exact ⟨L, b, t', e1, e2, by rw [e3]; exact ht⟩

/-- what the round trip is claimed for is fit for recovery, unless an instance of a missing class is an empty list or tuple, or
inside a set element, a dict key or an array of objects -/
theorem GoodDump.missing {gone : Nat → Bool} {a : DumpArgs} {s s' : Session} (h : GoodDump P a s s')
    (hne : ∀ (x : Addr) (o : Obj), a.heap[x]? = some o → o.lost (a.env.without gone) = true → o.val ≠ .seq [])
    (hset : ∀ (x : Addr) (o : Obj) items, a.heap[x]? = some o → o.val = .set items → ∀ y ∈ items, Live (a.env.without gone) a.heap y)
    (hdict : ∀ (x : Addr) (o : Obj) es, a.heap[x]? = some o → o.val = .dict es → ∀ e ∈ es, Live (a.env.without gone) a.heap e.1)
    (harr : ∀ (x : Addr) (o : Obj) sh items, a.heap[x]? = some o → o.val = .oarr sh items → ∀ y ∈ items, Live (a.env.without gone) a.heap y) :
    RecDump P gone a s s' :=
  ⟨h.env, h.prot, h.file, h.graph.lose gone hne hset hdict harr, h.acyclic, h.obj, h.opts, h.returns⟩

/-! ### consequences for the parts of the object -/

/-- none of the objects a path passes through is of a missing class -/
def LivePath (env : Env) (H : Heap) (a : Addr) (π : List Step) : Prop :=
  ∀ π0 st π1, π = π0 ++ st :: π1 → ∀ c o, follow H a π0 = some c → H[c]? = some o → o.lost env = false

theorem LivePath.tail {env : Env} {H : Heap} {a c : Addr} {o : Obj} {st : Step} {π : List Step} (h : LivePath env H a (st :: π))
    (ho : H[a]? = some o) (hs : o.val.step st = some c) : LivePath env H c π := by
  intro π0 st' π1 hπ d p hf hp
  refine h (st :: π0) st' π1 (by rw [hπ]; rfl) d p ?_ hp
  simp only [follow, ho, Option.bind_some, hs]
  exact hf

/-- the relation between an object graph and what was recovered of it -/
def RecRel (env : Env) (H L : Heap) (R : Addr → Addr → Prop) (N : DT → Addr → Addr → Prop) (Q : Addr → Addr → Prop) : Prop :=
  (∀ x c, R x c → ∃ o o', H[c]? = some o ∧ L[x]? = some o' ∧
    ((o.lost env = false ∧ o'.cls = o.cls ∧ ValCopy H R N Q o'.val o.val) ∨ (o.lost env = true ∧ Recovered env H L R N o' o))) ∧
  (∀ d x c, N d x c → ∃ o o', H[c]? = some o ∧ L[x]? = some o' ∧ SameNum d o o') ∧
  (∀ x c, Q x c → ∃ o, H[c]? = some o ∧ L[x]? = some o ∧ o.nameKey = true) ∧
  (∀ x c c', (R x c ∨ (∃ d, N d x c) ∨ Q x c) → (R x c' ∨ (∃ d, N d x c') ∨ Q x c') → c = c') ∧
  (∀ x y c o, R x c → R y c → H[c]? = some o → o.val.hasIdentity = true → x = y)

theorem RecRel.follow {env : Env} {H L : Heap} {R : Addr → Addr → Prop} {N : DT → Addr → Addr → Prop} {Q : Addr → Addr → Prop} (h : RecRel env H L R N Q)
    {π : List Step} : ∀ {x a c : Addr}, (R x a ∨ (∃ d, N d x a) ∨ Q x a) → Verif.follow H a π = some c → LivePath env H a π →
      ∃ y, Verif.follow L x π = some y ∧ (R y c ∨ (∃ d, N d y c) ∨ Q y c) := by
  induction π with
  | nil =>
    intro x a c hx hf _
    simp only [Verif.follow, Option.some.injEq] at hf ⊢
    subst hf
    exact ⟨x, rfl, hx⟩
  | cons st π ih =>
    intro x a c hx hf hl
    simp only [Verif.follow] at hf ⊢
    cases ho : H[a]? with
    | none => rw [ho] at hf; simp at hf
    | some o =>
      rw [ho] at hf
      simp only [Option.bind_some] at hf
      cases hs : o.val.step st with
      | none => rw [hs] at hf; simp at hf
      | some z =>
        rw [hs] at hf
        simp only [Option.bind_some] at hf
        have hlo : o.lost env = false := hl [] st π rfl a o rfl ho
        rcases hx with hx | ⟨d, hx⟩ | hx
        · obtain ⟨p, o', e1, e2, e3⟩ := h.1 x a hx
          rw [ho] at e1; simp only [Option.some.injEq] at e1; subst e1
          rcases e3 with ⟨_, _, e4⟩ | ⟨e3, _⟩
          · rcases e4.step st with ⟨_, g2⟩ | ⟨y, z', g1, g2, g3⟩
            · rw [hs] at g2; simp at g2
            · rw [hs] at g2; simp only [Option.some.injEq] at g2; subst g2
              simp only [e2, Option.bind_some, g1]
              exact ih g3 hf (hl.tail ho hs)
          · rw [hlo] at e3; simp at e3
        · obtain ⟨p, o', e1, e2, v, w, e3, _⟩ := h.2.1 d x a hx
          rw [ho] at e1; simp only [Option.some.injEq] at e1; subst e1
          rw [step_atom (exactNum_atom e3)] at hs; simp at hs
        · obtain ⟨p, e1, e2, e3⟩ := h.2.2.1 x a hx
          rw [ho] at e1; simp only [Option.some.injEq] at e1; subst e1
          rw [step_atom (Obj.nameKey_atom e3)] at hs; simp at hs

/-- **C28, instances of missing classes.**  The instance of a missing class a path leads to is recovered; the members of
the recovered group are recovered copies in turn. -/
theorem C28_lost_partial {gone : Nat → Bool} {a : DumpArgs} {s s' : Session} (h : RecDump P gone a s s') {π : List Step} {c : Addr} {o : Obj}
    (hf : follow a.heap a.obj π = some c) (hp : LivePath (a.env.without gone) a.heap a.obj π) (ho : a.heap[c]? = some o)
    (hl : o.lost (a.env.without gone) = true) :
    Loads P (a.env.without gone) s'.store a.path fun L b => ∃ (x : Addr) (o' : Obj) (R : Addr → Addr → Prop) (N : DT → Addr → Addr → Prop),
      follow L b π = some x ∧ L[x]? = some o' ∧ Recovered (a.env.without gone) a.heap L R N o' o ∧
      (∀ y d, R y d → RecoveredCopy (a.env.without gone) a.heap L y d) ∧
      ∀ d y z, N d y z → ∃ q q', a.heap[z]? = some q ∧ L[y]? = some q' ∧ SameNum d q q' := by
  refine (C28_partial h).imp fun L b hb => ?_
  obtain ⟨R, N, Q, h0, hr⟩ := hb
  have hr : RecRel (a.env.without gone) a.heap L R N Q := hr
  obtain ⟨x, e1, e2⟩ := hr.follow (.inl h0) hf hp
  have hcl : ∃ k, o.cls = .user k := by
    obtain ⟨cl, v⟩ := o
    cases cl <;> first | exact ⟨_, rfl⟩ | simp [Obj.lost] at hl
  obtain ⟨k, hk⟩ := hcl
  rcases e2 with e2 | ⟨d, e2⟩ | e2
  · obtain ⟨p, o', g1, g2, g3⟩ := hr.1 x c e2
    rw [ho] at g1; simp only [Option.some.injEq] at g1; subst g1
    rcases g3 with ⟨g3, _⟩ | ⟨_, g3⟩
    · rw [hl] at g3; simp at g3
    · exact ⟨x, o', R, N, e1, g2, g3, fun y d hyd => ⟨R, N, Q, hyd, hr⟩, hr.2.1⟩
  · obtain ⟨p, o', g1, g2, v, w, g3, _⟩ := hr.2.1 d x c e2
    rw [ho] at g1; simp only [Option.some.injEq] at g1; subst g1
    simp [exactNum, hk] at g3
  · obtain ⟨p, g1, _, g3⟩ := hr.2.2.1 x c e2
    rw [ho] at g1; simp only [Option.some.injEq] at g1; subst g1
    obtain ⟨cl, v⟩ := o
    simp only at hk; subst hk
    simp [Obj.nameKey, Obj.plainKey] at g3

theorem ValCopy.on {H : Heap} {R Q : Addr → Addr → Prop} {N : DT → Addr → Addr → Prop} {p : Addr → Prop} {val' val : Val}
    (hch : ∀ x ∈ val.children, p x) (h : ValCopy H R N Q val' val) :
    ValCopy H (fun x c => R x c ∧ p c) (fun d x c => N d x c ∧ p c) (fun x c => Q x c ∧ p c) val' val := by
  have items : ∀ {r : Addr → Addr → Prop} {xs as : List Addr}, All2 r xs as → (∀ y ∈ as, p y) → All2 (fun x c => r x c ∧ p c) xs as := by
    intro r xs as hall
    induction hall with
    | nil => intro _; exact .nil
    | cons q1 _ ih => intro hy; exact .cons ⟨q1, hy _ (by simp)⟩ (ih fun y hyy => hy y (by simp [hyy]))
  have itemsCopy : ∀ {xs as : List Addr}, ItemsCopy H R N xs as → (∀ y ∈ as, p y) →
      ItemsCopy H (fun x c => R x c ∧ p c) (fun d x c => N d x c ∧ p c) xs as := by
    intro xs as hic hy
    rcases hic with ⟨q, q2⟩ | ⟨d, q1, q⟩
    · exact .inl ⟨items q hy, q2⟩
    · exact .inr ⟨d, q1, items q hy⟩
  cases h with
  | atom q => exact .atom q
  | seq q => exact .seq (itemsCopy q hch)
  | @set xs as bs q q2 => exact .set (itemsCopy q fun y hy => hch y (q2.mem_iff.1 hy)) q2
  | @dict es' es q =>
    refine .dict ?_
    simp only [Val.children, List.mem_flatMap] at hch
    have hch' : ∀ e ∈ es, p e.1 ∧ p e.2 := fun e he => ⟨hch e.1 ⟨e, he, by simp⟩, hch e.2 ⟨e, he, by simp⟩⟩
    clear hch
    induction q with
    | nil => exact .nil
    | cons q1 _ ih =>
      refine .cons ?_ (ih fun e he => hch' e (by simp [he]))
      have hl := hch' _ (List.mem_cons_self ..)
      rcases q1 with ⟨q1, q2⟩ | ⟨q1, q2⟩
      · exact .inl ⟨⟨q1, hl.1⟩, q2, hl.2⟩
      · refine .inr ⟨q1, itemsCopy q2 ?_⟩
        intro y hy
        simp only [List.mem_cons, List.not_mem_nil, or_false] at hy
        rcases hy with rfl | rfl
        · exact hl.1
        · exact hl.2
  | oarr q => exact .oarr (items q hch)
  | sparse q1 q2 q3 =>
    simp only [Val.children] at hch
    exact .sparse ⟨q1, hch _ (by simp)⟩ ⟨q2, hch _ (by simp)⟩ ⟨q3, hch _ (by simp)⟩

/-- what has no instance of a missing class in it is copied -/
theorem RecoveredCopy.copy {env : Env} {H L : Heap} {b a : Addr} (h : RecoveredCopy env H L b a) (hl : Live env H a) : Copy H L b a := by
  obtain ⟨R, N, Q, h0, h1, h2, h3, h4, h5⟩ := h
  refine ⟨fun x c => R x c ∧ Reach H a c, fun d x c => N d x c ∧ Reach H a c, fun x c => Q x c ∧ Reach H a c, ⟨h0, .here⟩, ?_, ?_, ?_, ?_, ?_⟩
  · rintro x c ⟨hr, hc⟩
    obtain ⟨o, o', e1, e2, e3⟩ := h1 x c hr
    rcases e3 with ⟨_, e3, e4⟩ | ⟨e3, _⟩
    · exact ⟨o, o', e1, e2, e3, e4.on fun y hy => .into hc e1 hy⟩
    · rw [hl c o hc e1] at e3; simp at e3
  · rintro d x c ⟨hr, _⟩; exact h2 d x c hr
  · rintro x c ⟨hr, _⟩; exact h3 x c hr
  · intro x c c' k1 k2
    refine h4 x c c' ?_ ?_
    · rcases k1 with k | ⟨d, k⟩ | k
      · exact .inl k.1
      · exact .inr (.inl ⟨d, k.1⟩)
      · exact .inr (.inr k.1)
    · rcases k2 with k | ⟨d, k⟩ | k
      · exact .inl k.1
      · exact .inr (.inl ⟨d, k.1⟩)
      · exact .inr (.inr k.1)
  · rintro x y c o ⟨k1, _⟩ ⟨k2, _⟩; exact h5 x y c o k1 k2

/-- **C28, everything else.**  What a path leads to and has no instance of a missing class in it is loaded as usual: a copy, a
numpy scalar of the same value for numbers next to numbers only, the same key for a dict key. -/
theorem C28_others_partial {gone : Nat → Bool} {a : DumpArgs} {s s' : Session} (h : RecDump P gone a s s') {π : List Step} {c : Addr}
    (hf : follow a.heap a.obj π = some c) (hp : LivePath (a.env.without gone) a.heap a.obj π) (hl : Live (a.env.without gone) a.heap c) :
    Loads P (a.env.without gone) s'.store a.path fun L b => ∃ x : Addr, follow L b π = some x ∧
      (Copy a.heap L x c ∨ (∃ (d : DT) (o o' : Obj), a.heap[c]? = some o ∧ L[x]? = some o' ∧ SameNum d o o') ∨
        ∃ o : Obj, a.heap[c]? = some o ∧ L[x]? = some o) := by
  refine (C28_partial h).imp fun L b hb => ?_
  obtain ⟨R, N, Q, h0, hr⟩ := hb
  have hr : RecRel (a.env.without gone) a.heap L R N Q := hr
  obtain ⟨x, e1, e2⟩ := hr.follow (.inl h0) hf hp
  refine ⟨x, e1, ?_⟩
  rcases e2 with e2 | ⟨d, e2⟩ | e2
  · exact .inl (RecoveredCopy.copy ⟨R, N, Q, e2, hr⟩ hl)
  · exact .inr (.inl ⟨d, hr.2.1 d x c e2⟩)
  · obtain ⟨o, g1, g2, _⟩ := hr.2.2.1 x c e2
    exact .inr (.inr ⟨o, g1, g2⟩)

/-- if all classes can be imported, this is the round trip of C01 -/
theorem C28_none_missing {gone : Nat → Bool} {a : DumpArgs} {s s' : Session} (h : RecDump P gone a s s')
    (hl : Live (a.env.without gone) a.heap a.obj) :
    Loads P (a.env.without gone) s'.store a.path fun L b => Copy a.heap L b a.obj :=
  (C28_partial h).imp fun _ _ hb => hb.copy hl

/-! ### the hypotheses are met -/

/-- a set of objects none of which is of a missing class and that has the parts of its objects in it -/
def closedB (env : Env) (H : Heap) (as : List Addr) : Bool :=
  as.all fun c => match H[c]? with
    | none => true
    | some o => !o.lost env && o.val.children.all fun d => decide (d ∈ as)

theorem live_of {env : Env} {H : Heap} {as : List Addr} (h : closedB env H as = true) {a : Addr} (ha : a ∈ as) : Live env H a := by
  have step : ∀ c ∈ as, ∀ o, H[c]? = some o → o.lost env = false ∧ ∀ d ∈ o.val.children, d ∈ as := by
    intro c hc o ho
    have := List.all_eq_true.1 h c hc
    rw [ho] at this
    simp only [Bool.and_eq_true, Bool.not_eq_true', List.all_eq_true, decide_eq_true_eq] at this
    exact this
  have mem : ∀ y, Reach H a y → y ∈ as := by
    intro y hy
    induction hy with
    | here => exact ha
    | into _ ho hd ih => exact (step _ ih _ ho).2 _ hd
  intro y o hy ho
  exact (step y (mem y hy) o ho).1

/-- the classes of the example are all missing -/
abbrev Ex.lostEnv : Env := Ex.env.without fun _ => true

/-- `Ex.heap` has a pickled object and an instance of a subclass of `list`; no class of them can be imported -/
theorem Ex.lost : RecDump (fun _ => True) (fun _ => true) Ex.dumpArgs Ex.file0 Ex.file1 := by
  have hc : closedB Ex.lostEnv Ex.heap [0, 1, 3, 4, 6] = true := by decide +kernel
  have h1 : ∀ o ∈ Ex.heap, (match o.val with
    | .set items => items.all fun x => decide (x ∈ [0, 1, 3, 4, 6])
    | .dict es => es.all fun e => decide (e.1 ∈ [0, 1, 3, 4, 6])
    | .oarr .. => false
    | _ => true) = true := by decide +kernel
  have h2 : ∀ o ∈ Ex.heap, o.lost Ex.lostEnv = true → o.val ≠ .seq [] := by decide +kernel
  refine Ex.good.missing (fun x o ho => h2 o (List.mem_of_getElem? ho)) ?_ ?_ ?_
  · intro x o items ho hv y hy
    have := h1 o (List.mem_of_getElem? ho)
    rw [hv] at this
    exact live_of hc (by simpa using List.all_eq_true.1 this y hy)
  · intro x o es ho hv e he
    have := h1 o (List.mem_of_getElem? ho)
    rw [hv] at this
    exact live_of hc (by simpa using List.all_eq_true.1 this e he)
  · intro x o sh items ho hv
    have := h1 o (List.mem_of_getElem? ho)
    rw [hv] at this
    simp at this

example : Loads (fun _ => True) Ex.lostEnv Ex.file1.store [ps "run", ps "a"] fun L b => RecoveredCopy Ex.lostEnv Ex.heap L b 11 :=
  C28_partial Ex.lost

theorem Ex.livePath {π : List Step} (h : π.length = 1) : LivePath Ex.lostEnv Ex.heap 11 π := by
  intro π0 st π1 hπ c o hf ho
  have : π0 = [] := by
    rw [hπ] at h
    simp only [List.length_append, List.length_cons] at h
    exact List.eq_nil_of_length_eq_zero (by omega)
  subst this
  simp only [follow, Option.some.injEq] at hf
  subst hf
  simp only [Ex.heap, List.getElem?_cons_succ, List.getElem?_cons_zero, Option.some.injEq] at ho
  subst ho
  rfl

/-- item 6 of the list, the instance of the missing subclass of `list`, is recovered; item 0, a dict, is a copy -/
example : Loads (fun _ => True) Ex.lostEnv Ex.file1.store [ps "run", ps "a"] fun L b => ∃ (x : Addr) (o' : Obj) (R : Addr → Addr → Prop) (N : DT → Addr → Addr → Prop),
    follow L b [.item 6] = some x ∧ L[x]? = some o' ∧ Recovered Ex.lostEnv Ex.heap L R N o' ⟨.user 1, .seq [0, 9]⟩ :=
  (C28_lost_partial (π := [.item 6]) (c := 10) Ex.lost (by decide +kernel) (Ex.livePath rfl) rfl rfl).imp
    fun _ _ ⟨x, o', R, N, h1, h2, h3, _⟩ => ⟨x, o', R, N, h1, h2, h3⟩

example : Loads (fun _ => True) Ex.lostEnv Ex.file1.store [ps "run", ps "a"] fun L b => ∃ x : Addr, follow L b [.item 0] = some x ∧
      (Copy Ex.heap L x 5 ∨ (∃ (d : DT) (o o' : Obj), Ex.heap[5]? = some o ∧ L[x]? = some o' ∧ SameNum d o o') ∨
        ∃ o : Obj, Ex.heap[5]? = some o ∧ L[x]? = some o) :=
  C28_others_partial (π := [.item 0]) (c := 5) Ex.lost (by decide +kernel) (Ex.livePath rfl)
    (live_of (as := [0, 1, 2, 3, 4, 5]) (by decide +kernel) (by decide))

/-! ### counterexamples to the full property -/

/-- dump returns; the following load, in a program in which the classes of `Ex.env` are missing, raises -/
def C28.unloadable (H : Heap) (obj : Addr) : Prop :=
  ∃ s' s'', dumpTop (Ex.args H obj) Ex.file0 = (.ok (), s') ∧ loadTop ⟨Ex.lostEnv, [], id, 100⟩ s' = (.error .valueError, s'')

theorem C28.unloadable_of {H : Heap} {obj : Addr} (h1 : Ex.isOk (dumpTop (Ex.args H obj) Ex.file0).1 = true)
    (h2 : Ex.raised (loadTop ⟨Ex.lostEnv, [], id, 100⟩ (dumpTop (Ex.args H obj) Ex.file0).2).1 = some .valueError) :
    C28.unloadable H obj := by
  obtain ⟨⟨⟩, h1⟩ := Ex.eq_of_isOk h1
  exact ⟨_, _, h1, Ex.eq_of_raised h2⟩

/-- **C28 is violated.**  An empty list of a missing subclass of `list`: its node has no data `RecoveredDataset` could hold.  `load`
raises, also for the rest of the file: here for a list with the string `'a'` and the empty list. -/
theorem C28_violated_empty : C28.unloadable [⟨.str, .str (ps "a")⟩, ⟨.user 1, .seq []⟩, ⟨.list, .seq [0, 1]⟩] 2 :=
  C28.unloadable_of (by decide +kernel) (by decide +kernel)

/-- **C28 is violated.**  A set with an instance of a missing class: what is recovered is not hashable. -/
theorem C28_violated_set : C28.unloadable [⟨.user 0, .opaque 5 true⟩, ⟨.str, .str (ps "a")⟩, ⟨.set, .set [0, 1]⟩] 2 :=
  C28.unloadable_of (by decide +kernel) (by decide +kernel)

/-- **C28 is violated.**  A dict with an instance of a missing class as key -/
theorem C28_violated_key : C28.unloadable [⟨.user 0, .opaque 5 true⟩, ⟨.str, .str (ps "a")⟩, ⟨.dict, .dict [(0, 1)]⟩] 2 :=
  C28.unloadable_of (by decide +kernel) (by decide +kernel)

/-- the object a file written with all classes loads as when the classes are missing -/
def C28.reload (H : Heap) (obj : Addr) : Option Obj :=
  match dumpTop (Ex.args H obj) Ex.file0 with
  | (.ok _, s') => match loadTop ⟨Ex.lostEnv, [], id, 100⟩ s' with
    | (.ok r, _) => r.1[r.2]?
    | _ => none
  | _ => none

theorem C28.of_reload {H : Heap} {obj : Addr} {o : Obj} (h : C28.reload H obj = some o) :
    ∃ s' s'' L b, dumpTop (Ex.args H obj) Ex.file0 = (.ok (), s') ∧ loadTop ⟨Ex.lostEnv, [], id, 100⟩ s' = (.ok (L, b), s'') ∧ L[b]? = some o := by
  unfold C28.reload at h
  split at h
  · next s' hd =>
    split at h
    · next r s'' hl => exact ⟨s', s'', r.1, r.2, hd, hl, h⟩
    · simp at h
  · simp at h

/-- **C28 is violated.**  A pickled object is recovered to an array without any attributes: not even the name of the loader is given. -/
theorem C28_violated_name : ∃ s' s'' L b, dumpTop (Ex.args [⟨.user 0, .opaque 5 true⟩] 0) Ex.file0 = (.ok (), s') ∧
    loadTop ⟨Ex.lostEnv, [], id, 100⟩ s' = (.ok (L, b), s'') ∧ L[b]? = some ⟨.recData, .recData (.pickleObj (.user 0) 5) []⟩ :=
  C28.of_reload (by decide +kernel)

/-- a list of a missing subclass of `list` is recovered to a dict with one entry for every item -/
example : ∃ s' s'' L b, dumpTop (Ex.args [⟨.str, .str (ps "a")⟩, ⟨.user 1, .seq [0]⟩] 1) Ex.file0 = (.ok (), s') ∧
    loadTop ⟨Ex.lostEnv, [], id, 100⟩ s' = (.ok (L, b), s'') ∧ L[b]? = some ⟨.recGroup, .recGroup
      [(ps "data0", 1, some [("item_index", .int 0), ("str_type", .bytes "str")])]
      [("base_type", .bytes "list"), ("num_items", .int 1)]⟩ :=
  C28.of_reload (by decide +kernel)

end Verif
