import Verif.Hickle.LoadNode
/-!
# What was loaded can be dumped again

The objects created by a load of a complete dump meet the conditions under which the round trip is
claimed.
-/
namespace Verif

variable {P : Nat → Prop} {base : Nat} {H : Heap} {W : Rel} {rk : Addr → Nat} {c : LCtx}

theorem goodCls_native {P : Nat → Prop} {env : Env} {cl : Cls} {v : Val} (h : NativeOk ⟨cl, v⟩ = true) : GoodCls P env cl := by
  intro k hk
  cases cl <;> simp [NativeOk] at h <;>
    (simp only [Cls.mro, List.mem_cons, List.not_mem_nil, or_false] at hk
     rcases hk with rfl | rfl | rfl | rfl | rfl <;> exact ⟨trivial, .inl ⟨_, rfl⟩⟩)

theorem objOk_native {env : Env} {o : Obj} (h : NativeOk o = true) : ObjOk env o := by
  obtain ⟨cl, v⟩ := o
  cases cl with
  | user k => simp [NativeOk] at h
  | _ => exact h

/-- a converted number is in range -/
theorem castNum_native {d : DT} {v w : NpVal} (h : castNum d v = some w) : NativeOk ⟨w.cls, .np w⟩ = true ∧ w.dt = d := by
  cases d <;> cases v <;> simp only [castNum, Option.map_eq_some_iff, Option.some.injEq] at h <;>
    (try (simp at h; done))
  case int64.b x => subst h; cases x <;> decide
  case int64.i x => split at h <;> simp at h; subst h; next hk => exact ⟨hk, rfl⟩
  all_goals first
    | (subst h; exact ⟨rfl, rfl⟩)
    | (obtain ⟨y, hy, rfl⟩ := h; exact ⟨rfl, rfl⟩)

theorem exactNum_np (w : NpVal) : exactNum ⟨w.cls, .np w⟩ = some w := by cases w <;> rfl

theorem exactNum_atom {o : Obj} {v : NpVal} (h : exactNum o = some v) : o.val.isAtom = true := by
  obtain ⟨cl, val⟩ := o
  cases val <;> first | rfl | (cases cl <;> simp [exactNum] at h)

theorem GoodHeap.live {P : Nat → Prop} {env : Env} {H : Heap} (h : GoodHeap P env H) (a : Addr) : Live env H a :=
  fun y q _ hq => (h.cls y q hq).2.live

/-- without missing classes -/
theorem LInv.exact_good {G : Ghost} {s : LState} (h : LInv P H W c G s) (hg : GoodHeap P c.env H) {x a : Addr} (hR : G.R x a) :
    ∃ o o', H[a]? = some o ∧ s.heap[x]? = some o' ∧ o'.cls = o.cls ∧ ValCopy H G.R G.N G.Q o'.val o.val := by
  obtain ⟨o, o', e1, e2, e3⟩ := h.exact x a hR
  exact ⟨o, o', e1, e2, e3.live (hg.cls a o e1).2.live⟩

/-- a copied number is the number -/
theorem LInv.numR {G : Ghost} {s : LState} (h : LInv P H W c G s) {x a : Addr} (hR : G.R x a) {o' : Obj} (ho : s.heap[x]? = some o')
    {v : NpVal} (hv : exactNum o' = some v) : H[a]? = some o' := by
  obtain ⟨⟨cl, val⟩, ⟨cl', val'⟩, e1, e2, e3⟩ := h.exact x a hR
  rw [ho] at e2; simp at e2; subst e2
  have hat := exactNum_atom hv
  rcases e3 with ⟨_, e3, e4⟩ | ⟨_, hr⟩
  case inr => cases hr with
    | pickled _ h => cases h; simp [exactNum] at hv
    | data _ _ _ h => cases h; simp [exactNum] at hv
    | group _ _ _ _ h => cases h; simp [exactNum] at hv
  simp only at e3 e4 hat
  subst e3
  cases e4 with
  | atom => exact e1
  | _ => simp [Val.isAtom] at hat

theorem LInv.numRQ {G : Ghost} {s : LState} (h : LInv P H W c G s) {x a : Addr} (hR : G.R x a ∨ G.Q x a) {o' : Obj} (ho : s.heap[x]? = some o')
    {v : NpVal} (hv : exactNum o' = some v) : H[a]? = some o' := by
  rcases hR with hR | hQ
  · exact h.numR hR ho hv
  · obtain ⟨o, e1, e2, _⟩ := h.key x a hQ
    rw [ho] at e2; simp at e2; subst e2
    exact e1

theorem LInv.numN {G : Ghost} {s : LState} (h : LInv P H W c G s) {d : DT} {x a : Addr} (hN : G.N d x a) {o' : Obj} (ho : s.heap[x]? = some o')
    {v : NpVal} (hv : exactNum o' = some v) : v.dt = d := by
  obtain ⟨o, o1, _, e2, v0, w, _, rfl, e3, _⟩ := h.num d x a hN
  rw [ho] at e2; simp at e2; subst e2
  rw [exactNum_np] at hv; simp at hv; subst hv
  exact (castNum_native e3).2

theorem All2.drop {α β : Type} {r : α → β → Prop} {xs : List α} {ys : List β} (h : All2 r xs ys) (n : Nat) : All2 r (xs.drop n) (ys.drop n) := by
  induction h generalizing n with
  | nil => simp; exact .nil
  | cons h1 h2 ih =>
    cases n with
    | zero => exact .cons h1 h2
    | succ n => simpa using ih n

theorem All2.take {α β : Type} {r : α → β → Prop} {xs : List α} {ys : List β} (h : All2 r xs ys) (n : Nat) : All2 r (xs.take n) (ys.take n) := by
  induction h generalizing n with
  | nil => simp; exact .nil
  | cons h1 h2 ih =>
    cases n with
    | zero => exact .nil
    | succ n => simpa using .cons h1 (ih n)

theorem numDt_ne {H : Heap} {a : Addr} (h : numDt H a ≠ none) : ∃ o v, H[a]? = some o ∧ exactNum o = some v := by
  cases ho : H[a]? with
  | none => simp [numDt, ho] at h
  | some o =>
    cases hv : exactNum o with
    | none => simp [numDt, ho, hv] at h
    | some v => exact ⟨o, v, rfl, hv⟩

theorem LInv.numsOk_RQ {G : Ghost} {s : LState} (h : LInv P H W c G s) {xs as : List Addr}
    (hr : All2 (fun x a => G.R x a ∨ G.Q x a) xs as) (hn : NumsOk H as) : NumsOk s.heap xs := by
  intro hall x hx y hy o p i v ho hp hi hv hd
  have hall' : ∀ a ∈ as, numDt H a ≠ none := by
    intro a ha
    obtain ⟨x, hx, hxa⟩ := hr.right ha
    obtain ⟨o, v, ho, hv⟩ := numDt_ne (hall x hx)
    simp [numDt, h.numRQ hxa ho hv, hv]
  obtain ⟨a, ha, h1⟩ := hr.mem hx
  obtain ⟨b, hb, h2⟩ := hr.mem hy
  exact hn hall' a ha b hb o p i v (h.numRQ h1 ho hi) (h.numRQ h2 hp hv) hi hv hd

theorem LInv.numsOk {G : Ghost} {s : LState} (h : LInv P H W c G s) {xs as : List Addr}
    (hc : ItemsCopy H G.R G.N xs as) (hn : NumsOk H as) : NumsOk s.heap xs := by
  rcases hc with ⟨hr, _⟩ | ⟨d, _, hN⟩
  · exact h.numsOk_RQ (hr.mono fun _ _ h => .inl h) hn
  · intro _ x hx y hy o p i v ho hp hi hv hd
    obtain ⟨a, _, h1⟩ := hN.mem hx
    obtain ⟨b, _, h2⟩ := hN.mem hy
    have e1 := h.numN h1 ho hi
    have e2 := h.numN h2 hp hv
    rw [e2, ← e1] at hd
    simp [NpVal.dt] at hd

theorem NumsOk.perm {H : Heap} {as bs : List Addr} (hp : as.Perm bs) (h : NumsOk H as) : NumsOk H bs :=
  fun hall a ha b hb => h (fun a ha => hall a (hp.mem_iff.1 ha)) a (hp.mem_iff.2 ha) b (hp.mem_iff.2 hb)

theorem LInv.distinct {G : Ghost} {s : LState} (h : LInv P H W c G s) {env : Env} {xs as : List Addr} (hr : All2 (G.X H) xs as)
    (hl : ∀ a ∈ as, Hashed c.env H a) (hd : Distinct env H as) : Distinct env s.heap xs := by
  refine ⟨?_, ?_⟩
  · intro x hx
    obtain ⟨a, ha, ht⟩ := hr.mem hx
    obtain ⟨v, hv⟩ := Option.isSome_iff_exists.1 (hd.1 a ha)
    obtain ⟨v', e1, _⟩ := h.view' (u := env.u) ht (hl a ha) hv
    rw [e1]; rfl
  · obtain ⟨h1, h2⟩ := hd
    induction hr with
    | nil => exact .nil
    | @cons x a xs as ht hr ih =>
      rw [List.pairwise_cons] at h2
      refine .cons ?_ (ih (fun b hb => hl b (by simp [hb])) (fun b hb => h1 b (by simp [hb])) h2.2)
      intro y hy v' w' hv' hw'
      obtain ⟨b, hb, hty⟩ := hr.mem hy
      obtain ⟨v, hv⟩ := Option.isSome_iff_exists.1 (h1 a (by simp))
      obtain ⟨w, hw⟩ := Option.isSome_iff_exists.1 (h1 b (by simp [hb]))
      have hne := h2.1 b hb v w hv hw
      refine ⟨?_, ?_⟩
      · obtain ⟨v1, w1, e1, e2, e3⟩ := h.ne ht hty hv hw (hl a (by simp)) (hl b (by simp [hb])) hne.1
        rw [hv'] at e1; rw [hw'] at e2; simp at e1 e2; subst e1 e2; exact e3
      · obtain ⟨v1, w1, e1, e2, e3⟩ := h.ne hty ht hw hv (hl b (by simp [hb])) (hl a (by simp)) hne.2
        rw [hw'] at e1; rw [hv'] at e2; simp at e1 e2; subst e1 e2; exact e3

/-- the condition on an object's class and value carries over to a copy -/
theorem ObjOk.copy {env : Env} {cl : Cls} {v v' : Val} {R N Q} (hc : ValCopy H R N Q v' v) (h : ObjOk env ⟨cl, v⟩) : ObjOk env ⟨cl, v'⟩ := by
  cases hc with
  | atom => exact h
  | seq =>
    cases cl with
    | user k => exact h
    | _ => simp [ObjOk, NativeOk] at h ⊢
  | set =>
    cases cl with
    | user k => exact h
    | _ => simp [ObjOk, NativeOk] at h ⊢
  | dict =>
    cases cl with
    | user k => exact h
    | _ => simp [ObjOk, NativeOk] at h ⊢
  | oarr h1 =>
    cases cl with
    | user k => simp [ObjOk, UserOk] at h
    | _ =>
      simp [ObjOk, NativeOk] at h ⊢
      all_goals exact ⟨h.1, by rw [h1.length]; exact h.2⟩
  | sparse =>
    cases cl with
    | user k => simp [ObjOk, UserOk] at h
    | _ => simp [ObjOk, NativeOk] at h ⊢ <;> exact h

theorem KeyOk.copy {env : Env} {cl : Cls} {v v' : Val} {R N Q} (hc : ValCopy H R N Q v' v) (h : KeyOk env ⟨cl, v⟩) : KeyOk env ⟨cl, v'⟩ := by
  cases hc with
  | atom => exact h
  | _ => exact ⟨by simp, by simp, by simp, h.2.2.2.1, by simp, by simp⟩

theorem KeyOk.np {env : Env} (w : NpVal) : KeyOk env ⟨w.cls, .np w⟩ :=
  ⟨by simp, by simp, by simp, by cases w <;> simp [NpVal.cls], by simp, by simp⟩

theorem ItemsCopy.T {G : Ghost} {xs as : List Addr} (h : ItemsCopy H G.R G.N xs as) : All2 G.T xs as := by
  rcases h with ⟨h, _⟩ | ⟨d, _, h⟩
  · exact h.mono fun _ _ h => .inl h
  · exact h.mono fun _ _ h => .inr (.inl ⟨d, h⟩)

theorem nameKey_num {o : Obj} (h : o.nameKey = true) (hp : o.plainKey = false) : exactNum o = none := by
  obtain ⟨cl, v⟩ := o
  cases cl <;> cases v <;> first | rfl | simp [Obj.nameKey, Obj.plainKey] at h hp

theorem ItemsCopy.child {G : Ghost} {xs as : List Addr} (h : ItemsCopy H G.R G.N xs as) {x : Addr} (hx : x ∈ xs) : ∃ a ∈ as, G.T x a :=
  h.T.mem hx

/-- a part of a copy is a copy of a part -/
theorem ValCopy.child {G : Ghost} {v' v : Val} (hc : ValCopy H G.R G.N G.Q v' v) {x : Addr} (hx : x ∈ v'.children) :
    ∃ a ∈ v.children, G.T x a := by
  cases hc with
  | atom h => cases v' <;> simp [Val.isAtom] at h <;> simp [Val.children] at hx
  | seq hi => exact hi.child hx
  | set hi hp =>
    obtain ⟨a, ha, ht⟩ := hi.child hx
    exact ⟨a, hp.mem_iff.1 ha, ht⟩
  | dict hd =>
    simp only [Val.children, List.mem_flatMap] at hx ⊢
    obtain ⟨e', he', hx⟩ := hx
    obtain ⟨e, he, hc⟩ := hd.mem he'
    simp only [List.mem_cons, List.not_mem_nil, or_false] at hx
    rcases hc with ⟨h1, h2⟩ | ⟨_, hi⟩
    · rcases hx with rfl | rfl
      · exact ⟨e.1, ⟨e, he, by simp⟩, .inr (.inr h1)⟩
      · exact ⟨e.2, ⟨e, he, by simp⟩, .inl h2⟩
    · obtain ⟨a, ha, ht⟩ := hi.child (x := x) (by simpa using hx)
      exact ⟨a, ⟨e, he, ha⟩, ht⟩
  | oarr hi =>
    obtain ⟨a, ha, ht⟩ := hi.mem hx
    exact ⟨a, ha, .inl ht⟩
  | @sparse d' i' p' d i p _ h1 h2 h3 =>
    simp only [Val.children, List.mem_cons, List.not_mem_nil, or_false] at hx
    rcases hx with rfl | rfl | rfl
    · exact ⟨d, by simp [Val.children], .inl h1⟩
    · exact ⟨i, by simp [Val.children], .inl h2⟩
    · exact ⟨p, by simp [Val.children], .inl h3⟩

/-- numbers in what is hashed keep their value when the copy is dumped again -/
theorem LInv.numsIn {G : Ghost} {s : LState} (h : LInv P H W c G s) (hg : GoodHeap P c.env H) {x a : Addr} (ht : G.T x a)
    (hn : NumsIn H a) : NumsIn s.heap x := by
  have atomT : ∀ y b o', G.T y b → s.heap[y]? = some o' → o'.val.isAtom = false → G.R y b := by
    rintro y b o' (hR | ⟨d, hN⟩ | hQ) ho hat
    · exact hR
    · obtain ⟨o, o1, _, e2, v, w, _, e3, _⟩ := h.num d y b hN
      rw [ho] at e2; simp at e2; subst e2
      rw [e3] at hat; simp [Val.isAtom] at hat
    · obtain ⟨o, e1, e2, e3⟩ := h.key y b hQ
      rw [ho] at e2; simp at e2; subst e2
      rw [Obj.nameKey_atom e3] at hat; simp at hat
  have key : ∀ y, Reach s.heap x y → ∃ b, G.T y b ∧ Reach H a b := by
    intro y hy
    induction hy with
    | here => exact ⟨a, ht, .here⟩
    | @into y z o' _ e1 e2 ih =>
      obtain ⟨b, hb, hr⟩ := ih
      have hat : o'.val.isAtom = false := by
        cases hat : o'.val.isAtom with
        | false => rfl
        | true => generalize o'.val = v at e2 hat; cases v <;> simp [Val.isAtom] at hat <;> simp [Val.children] at e2
      obtain ⟨o, o1, f1, f2, _, f4⟩ := h.exact_good hg (atomT y b o' hb e1 hat)
      rw [e1] at f2; simp at f2; subst f2
      obtain ⟨d, hd, hT⟩ := f4.child e2
      exact ⟨d, hT, .into hr f1 hd⟩
  intro y o' items hy ho hv
  obtain ⟨b, hb, hr⟩ := key y hy
  obtain ⟨o, o1, f1, f2, _, f4⟩ := h.exact_good hg (atomT y b o' hb ho (by rw [hv]; rfl))
  rw [ho] at f2; simp at f2; subst f2
  rw [hv] at f4
  generalize hov : o.val = v at f4
  cases f4 with
  | atom hh => simp [Val.isAtom] at hh
  | seq hc => exact h.numsOk hc (hn b o _ hr f1 hov)

theorem LInv.keyNumOk {G : Ghost} {s : LState} (h : LInv P H W c G s) {e' e : Addr × Addr} (he : EntryCopy H G.R G.N G.Q e' e)
    (hk : KeyNumOk H e.1 e.2) : KeyNumOk s.heap e'.1 e'.2 := by
  intro o p x w ho hp hpl hx hw hfl
  rcases he with ⟨h1, _⟩ | ⟨⟨q, hq, hq'⟩, ⟨hr, _⟩ | ⟨d, _, hN⟩⟩
  · obtain ⟨o1, e1, e2, e3⟩ := h.key _ _ h1
    rw [ho] at e2; simp at e2; subst e2
    rw [nameKey_num e3 hpl] at hx; simp at hx
  · cases hr with
    | cons r1 hr =>
      cases hr with
      | cons r2 _ => exact hk o p x w (h.numRQ (.inl r1) ho hx) (h.numRQ (.inl r2) hp hw) hpl hx hw hfl
  · cases hN with
    | cons r1 hN =>
      cases hN with
      | cons r2 _ =>
        have e1 := h.numN r1 ho hx
        have e2 := h.numN r2 hp hw
        rw [e2, ← e1] at hfl
        simp [NpVal.dt] at hfl

theorem unitObj_native : NativeOk unitObj = true := rfl

theorem LInv.goodHeap {G : Ghost} {s : LState} (h : LInv P H W c G s) (hg : GoodHeap P c.env H) : GoodHeap P c.env s.heap := by
  -- what every object is
  have what : ∀ (x : Addr) (o' : Obj), s.heap[x]? = some o' →
      o' = unitObj ∨ (∃ a o, G.R x a ∧ H[a]? = some o ∧ o'.cls = o.cls ∧ ValCopy H G.R G.N G.Q o'.val o.val) ∨
      (∃ w : NpVal, o' = ⟨w.cls, .np w⟩ ∧ NativeOk o' = true) ∨ ∃ a, G.Q x a ∧ H[a]? = some o' ∧ o'.nameKey = true := by
    intro x o' ho
    rcases h.all x (lt_of_getElem? ho) with rfl | ⟨a, hR | ⟨d, hN⟩ | hQ⟩
    · rw [h.zero] at ho; simp at ho; exact .inl ho.symm
    · obtain ⟨o, o1, e1, e2, e3, e4⟩ := h.exact_good hg hR
      rw [ho] at e2; simp at e2; subst e2
      exact .inr (.inl ⟨a, o, hR, e1, e3, e4⟩)
    · obtain ⟨o, o1, _, e2, v, w, _, e3, e4, _⟩ := h.num d x a hN
      rw [ho] at e2; simp at e2; subst e2
      exact .inr (.inr (.inl ⟨w, e3, by rw [e3]; exact (castNum_native e4).1⟩))
    · obtain ⟨o, e1, e2, e3⟩ := h.key x a hQ
      rw [ho] at e2; simp at e2; subst e2
      exact .inr (.inr (.inr ⟨a, hQ, e1, e3⟩))
  -- the containers
  have whatC : ∀ (x : Addr) (o' : Obj), s.heap[x]? = some o' → o'.val.isAtom = false →
      o' = unitObj ∨ (∃ a o, G.R x a ∧ H[a]? = some o ∧ o'.cls = o.cls ∧ ValCopy H G.R G.N G.Q o'.val o.val) := by
    intro x o' ho hat
    rcases what x o' ho with h1 | h1 | ⟨w, h1, _⟩ | ⟨a, _, _, h1⟩
    · exact .inl h1
    · exact .inr h1
    · subst h1; simp [Val.isAtom] at hat
    · rw [Obj.nameKey_atom h1] at hat; simp at hat
  constructor
  · intro x o' ho
    rcases what x o' ho with rfl | ⟨a, o, _, h1, h2, h3⟩ | ⟨w, h1, h2⟩ | ⟨a, _, h1, h2⟩
    · exact ⟨goodCls_native (v := .seq []) unitObj_native, objOk_native unitObj_native⟩
    · obtain ⟨g1, g2⟩ := hg.cls a o h1
      obtain ⟨cl, val⟩ := o
      obtain ⟨cl', val'⟩ := o'
      simp only at h2 h3; subst h2
      exact ⟨g1, g2.copy h3⟩
    · subst h1
      exact ⟨goodCls_native h2, objOk_native h2⟩
    · exact hg.cls a o' h1
  · intro x o ho y hy
    have := h.below x o ho y hy
    have := lt_of_getElem? ho
    omega
  · intro x o' items ho hv
    rcases whatC x o' ho (by rw [hv]; rfl) with rfl | ⟨a, ⟨cl, val⟩, _, h1, h2, h3⟩
    · simp [unitObj] at hv
    · simp only at h3
      rw [hv] at h3
      cases h3 with
      | atom hh => simp [Val.isAtom] at hh
      | set hc hp =>
        obtain ⟨n1, n2⟩ := hg.nums a _ _ h1 rfl
        refine ⟨h.numsOk hc (n1.perm hp.symm), fun y hy => ?_⟩
        obtain ⟨b, hb, ht⟩ := hc.child hy
        exact h.numsIn hg ht (n2 b (hp.mem_iff.1 hb))
  · intro x o' es' ho hv k' v' hkv
    rcases whatC x o' ho (by rw [hv]; rfl) with rfl | ⟨a, ⟨cl, val⟩, _, h1, h2, h3⟩
    · simp [unitObj] at hv
    · simp only at h3
      rw [hv] at h3
      cases h3 with
      | atom hh => simp [Val.isAtom] at hh
      | @dict _ es hc =>
        obtain ⟨⟨k, v⟩, hm, he⟩ := hc.mem hkv
        obtain ⟨n1, n2⟩ := hg.knums a _ es h1 rfl k v hm
        exact ⟨h.keyNumOk he n1, h.numsIn hg (he.key_X n1).T n2⟩
  · intro x o' items ho hv
    rcases whatC x o' ho (by rw [hv]; rfl) with rfl | ⟨a, ⟨cl, val⟩, _, h1, h2, h3⟩
    · simp [unitObj] at hv
    · simp only at h3
      rw [hv] at h3
      cases h3 with
      | atom hh => simp [Val.isAtom] at hh
      | set hc hp => 
        obtain ⟨n1, n2⟩ := hg.nums a _ _ h1 rfl
        exact h.distinct (h.items_X hc (n1.perm hp.symm)) (fun b hb => ⟨hg.live b, n2 b (hp.mem_iff.1 hb)⟩) ((hg.sets a _ _ h1 rfl).perm hp.symm)
  · intro x o' es' ho hv
    rcases whatC x o' ho (by rw [hv]; rfl) with rfl | ⟨a, ⟨cl, val⟩, _, h1, h2, h3⟩
    · simp [unitObj] at hv
    · simp only at h3
      rw [hv] at h3
      cases h3 with
      | atom hh => simp [Val.isAtom] at hh
      | @dict _ es hc =>
        obtain ⟨g1, g2⟩ := hg.keys a _ es h1 rfl
        refine ⟨?_, ?_⟩
        · have hkn := hg.knums a _ es h1 rfl
          refine h.distinct ?_ (fun b hb => ⟨hg.live b, ?_⟩) g1
          · clear g1 g2 h1 h2 hv
            induction hc with
            | nil => exact .nil
            | @cons e' e _ _ e1 _ ih => exact .cons (e1.key_X (hkn e.1 e.2 (by simp)).1) (ih fun k v hkv => hkn k v (by simp [hkv]))
          · obtain ⟨⟨k, v⟩, hm, rfl⟩ := List.mem_map.1 hb
            exact (hkn k v hm).2
        · intro k' v' hkv
          obtain ⟨⟨k, v⟩, hm, he⟩ := hc.mem hkv
          have n2 := g2 k v hm
          · intro q hq
            have hT : G.T k' k := by
              rcases he with ⟨e1, _⟩ | ⟨_, e1⟩
              · exact .inr (.inr e1)
              · cases e1.T with | cons e1 _ => exact e1
            rcases hT with hR | ⟨d, hN⟩ | hQ
            · obtain ⟨⟨cl, val⟩, ⟨cl', val'⟩, e1, e2, e3, e4⟩ := h.exact_good hg hR
              rw [hq] at e2; simp at e2; subst e2
              simp only at e3 e4; subst e3
              exact (n2 _ e1).copy e4
            · obtain ⟨o, o1, _, e2, v, w, _, e3, e4, _⟩ := h.num d k' k hN
              rw [hq] at e2; simp at e2; subst e2
              rw [e3]; exact KeyOk.np w
            · obtain ⟨o, e1, e2, e3⟩ := h.key k' k hQ
              rw [hq] at e2; simp at e2; subst e2
              exact n2 _ e1
  · intro x o' d i p sh ho hv
    rcases whatC x o' ho (by rw [hv]; rfl) with rfl | ⟨a, ⟨cl, val⟩, _, h1, h2, h3⟩
    · simp [unitObj] at hv
    · simp only at h3
      rw [hv] at h3
      cases h3 with
      | atom hh => simp [Val.isAtom] at hh
      | @sparse _ _ _ d0 i0 p0 _ r1 r2 r3 =>
        have hs := hg.sparse a _ d0 i0 p0 sh h1 rfl
        intro y hy
        simp only [List.mem_cons, List.not_mem_nil, or_false] at hy
        have key : ∀ z z0, G.R z z0 → z0 ∈ [d0, i0, p0] → ∃ t shape l, s.heap[z]? = some ⟨.ndarray, .arr t shape l⟩ := by
          intro z z0 hz hm
          obtain ⟨t, shape, l, e⟩ := hs z0 hm
          exact ⟨t, shape, l, h.atom hz e rfl rfl⟩
        rcases hy with rfl | rfl | rfl
        · exact key _ _ r1 (by simp)
        · exact key _ _ r2 (by simp)
        · exact key _ _ r3 (by simp)
  · intro x o' sh items ho hv
    rcases whatC x o' ho (by rw [hv]; rfl) with rfl | ⟨a, ⟨cl, val⟩, _, h1, h2, h3⟩
    · simp [unitObj] at hv
    · simp only at h3
      rw [hv] at h3
      cases h3 with
      | atom hh => simp [Val.isAtom] at hh
      | @oarr _ _ as hr =>
        obtain ⟨g1, g2⟩ := hg.oarrs a _ sh as h1 rfl
        refine ⟨?_, ?_⟩
        · intro y hy
          obtain ⟨b, hb, hyb⟩ := hr.mem hy
          obtain ⟨o, o1, e1, e2, e3, e4⟩ := h.exact_good hg hyb
          obtain ⟨q, hq, hd⟩ := g1 b hb
          rw [hq] at e1; simp at e1; subst e1
          exact ⟨o1, e2, noDims_copy e4 hd⟩
        · intro n hn k hk
          obtain ⟨b, hb, hd⟩ := g2 n hn k (by rw [← hr.length]; exact hk)
          obtain ⟨y, hy, hyb⟩ := ((hr.drop (k * n)).take n).right hb
          refine ⟨y, hy, ?_⟩
          cases hq : numDt s.heap y with
          | none => rfl
          | some d =>
            obtain ⟨o, v, ho, hv⟩ := numDt_ne (H := s.heap) (a := y) (by rw [hq]; simp)
            simp [numDt, h.numR hyb ho hv, hv] at hd
  · have zero : ∀ (x : Addr), s.heap[x]? = some ⟨.tuple, .seq []⟩ → x = 0 := by
      intro x hx
      rcases h.all x (lt_of_getElem? hx) with rfl | ⟨a, hR | ⟨d, hN⟩ | hQ⟩
      · rfl
      · obtain ⟨⟨cl, val⟩, o1, e1, e2, e3, e4⟩ := h.exact_good hg hR
        rw [hx] at e2; simp at e2; subst e2
        simp only at e3 e4; subst e3
        refine h.unit0 x a hR ?_
        cases e4 with
        | atom hh => simp [Val.isAtom] at hh
        | seq hc => cases hc.T; exact e1
      · obtain ⟨o, o1, _, e2, v, w, _, e3, e4, _⟩ := h.num d x a hN
        rw [hx] at e2; simp at e2; subst e2
        simp at e3
      · obtain ⟨o, e1, e2, e3⟩ := h.key x a hQ
        rw [hx] at e2; simp at e2; subst e2
        simp [Obj.nameKey, Obj.plainKey] at e3
    intro x y hx hy
    rw [zero x hx, zero y hy]

theorem LInv.ranked {G : Ghost} {s : LState} (h : LInv P H W c G s) : Ranked s.heap id := fun x o ho y hy => h.below x o ho y hy

end Verif
