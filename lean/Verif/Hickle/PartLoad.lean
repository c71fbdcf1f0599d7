import Verif.Hickle.PartTop
import Verif.Hickle.PartSpec
/-!
# What is loaded from the nodes an interrupted dump left

`loadNode_part`: whatever is loaded from a node described by `Draft` is a part of the object the node was made for.
-/
namespace Verif

/-- what holds of the result if there is one -/
def Yields {α : Type} (x : LM α) (s : LState) (Q : α → LState → Prop) : Prop := ∀ a s', x s = (.ok a, s') → Q a s'

theorem Yields.bind {α β : Type} {x : LM α} {f : α → LM β} {s : LState} {Q Q'} (h : Yields x s Q')
    (hf : ∀ a s1, Q' a s1 → Yields (f a) s1 Q) : Yields (x >>= f) s Q := by
  intro b s' hb
  obtain ⟨a, s1, h1, h2⟩ := M.bind_ok_iff.1 hb
  exact hf a s1 (h a s1 h1) b s' h2

theorem Yields.pure {α : Type} {a : α} {s : LState} {Q : α → LState → Prop} (h : Q a s) : Yields (pure a : LM α) s Q := by
  intro b s' hb
  rw [M.pure_apply] at hb
  simp at hb; obtain ⟨rfl, rfl⟩ := hb; exact h

theorem Yields.throw {α : Type} {e : PyErr} {s : LState} {Q : α → LState → Prop} : Yields (M.throw e : LM α) s Q := by
  intro b s' hb; simp [M.throw] at hb

theorem Yields.get {s : LState} {Q : LState → LState → Prop} (h : Q s s) : Yields (M.get : LM LState) s Q := by
  intro b s' hb
  rw [M.get_apply] at hb
  simp at hb; obtain ⟨rfl, rfl⟩ := hb; exact h

theorem Yields.ofExcept {α : Type} {x : Except PyErr α} {s : LState} {Q : α → LState → Prop} (h : ∀ a, x = .ok a → Q a s) :
    Yields (M.ofExcept x : LM α) s Q := by
  intro b s' hb
  cases x with
  | error e => simp [M.ofExcept] at hb
  | ok a => simp [M.ofExcept] at hb; obtain ⟨rfl, rfl⟩ := hb; exact h _ rfl

theorem Yields.of_ok {α : Type} {x : LM α} {s : LState} {Q : α → LState → Prop} {a s1} (hx : x s = (.ok a, s1)) (h : Q a s1) : Yields x s Q := by
  intro b s' hb
  rw [hx] at hb; simp at hb; obtain ⟨rfl, rfl⟩ := hb; exact h

theorem Yields.mono {α : Type} {x : LM α} {s : LState} {Q Q' : α → LState → Prop} (h : Yields x s Q) (hq : ∀ a s', Q a s' → Q' a s') : Yields x s Q' :=
  fun a s' he => hq a s' (h a s' he)

/-! ### parts -/

section mono
variable {env : Env} {H L L' : Heap} {R R' : Addr → Addr → Prop}

theorem Hole.mono (hp : L <+: L') {x} (h : Hole L x) : Hole L' x := getElem?_prefix hp h

theorem NumOf.mono (hp : L <+: L') {d x c} (h : NumOf H L d x c) : NumOf H L' d x c := by
  obtain ⟨o, o', h1, h2, h3⟩ := h
  exact ⟨o, o', h1, getElem?_prefix hp h2, h3⟩

theorem ItemsPart.mono (hp : L <+: L') (hR : ∀ x c, R x c → R' x c) {xs as} (h : ItemsPart H L R xs as) : ItemsPart H L' R' xs as := by
  rcases h with h | ⟨d, h⟩
  · exact .inl (h.mono fun x c h => h.imp (·.mono hp) (hR x c))
  · exact .inr ⟨d, h.mono fun _ _ h => h.mono hp⟩

theorem KeyOf.mono (hp : L <+: L') {x c} (h : KeyOf H L x c) : KeyOf H L' x c := by
  obtain ⟨o, h1, h2, h3⟩ := h
  exact ⟨o, h1, getElem?_prefix hp h2, h3⟩

theorem EntryPart.mono (hp : L <+: L') (hR : ∀ x c, R x c → R' x c) {e' e} (h : EntryPart H L R e' e) : EntryPart H L' R' e' e := by
  rcases h with ⟨h1, h2⟩ | h
  · exact .inl ⟨h1.mono hp, hR _ _ h2⟩
  · exact .inr (h.mono hp hR)

theorem KeyEq.mono (hp : L <+: L') {k k'} (h : KeyEq env L k k') : KeyEq env L' k k' := by
  rcases h with h | ⟨v, w, h1, h2, h3⟩
  · exact .inl h
  · exact .inr ⟨v, w, view_mono hp h1, view_mono hp h2, h3⟩

theorem RowPart.mono (hp : L <+: L') {Q Q' : Addr → Prop} (hQ : ∀ x, Q x → Q' x) {x} (h : RowPart L Q x) : RowPart L' Q' x := by
  induction h with
  | hole h => exact .hole (h.mono hp)
  | leaf h => exact .leaf (hQ _ h)
  | row h _ ih => exact .row (getElem?_prefix hp h) ih

theorem PartVal.mono (hp : L <+: L') (hR : ∀ x c, R x c → R' x c) {v' v} (h : PartVal env H L R v' v) : PartVal env H L' R' v' v := by
  have hn : ∀ {x c}, (R x c ∨ ∃ d, NumOf H L d x c) → (R' x c ∨ ∃ d, NumOf H L' d x c) :=
    fun h => h.imp (hR _ _) fun ⟨d, h⟩ => ⟨d, h.mono hp⟩
  cases h with
  | atom h => exact .atom h
  | seq h => exact .seq (h.mono hp hR)
  | set h => exact .set fun x hx => by obtain ⟨c, h1, h2⟩ := h x hx; exact ⟨c, h1, hn h2⟩
  | dict h =>
    refine .dict fun e' he => ?_
    obtain ⟨⟨v, e, h1, h2⟩, k, h3, f, h4, h5⟩ := h e' he
    exact ⟨⟨v, e, h1, h2.mono hp hR⟩, k, h3.mono hp, f, h4, h5.mono hp hR⟩
  | sarr h => exact .sarr h
  | oarr h => exact .oarr fun x hx => (h x hx).mono hp fun y ⟨c, h1, h2⟩ => ⟨c, h1, hn h2⟩
  | sparse h1 h2 h3 => exact .sparse (hR _ _ h1) (hR _ _ h2) (hR _ _ h3)

end mono

/-! ### the invariant -/

/-- what is known of the file, the dumped heap and the manager -/
structure PHyp (P : Nat → Prop) (base : Nat) (K : Heap) (W : Recs) (c : LCtx) : Prop where
  env : EnvOk P c.env
  mgr : c.mgr.Ok
  order : ∀ l, ∀ p ∈ c.order l, p ∈ l
  good : GoodGraph P c.env K
  live : ∀ (a : Addr) (o : Obj), K[a]? = some o → o.lost c.env = false
  draft : ∀ n r, W n r → Draft c.env base K c.store W n r
  uniq : ∀ n r r', W n r → W n r' → r = r'

theorem PHyp.ok {P base K W c} (hh : PHyp P base K W c) {a : Addr} {o : Obj} (ho : K[a]? = some o) : ObjOk c.env o := hh.good.ok a o ho (hh.live a o ho)

/-- invariant of a running load: `R x a`, object `x` is a part of object `a` -/
structure PLoad (P : Nat → Prop) (K : Heap) (W : Recs) (c : LCtx) (R : Addr → Addr → Prop) (s : LState) : Prop where
  zero : s.heap[0]? = some unitObj
  part : ∀ x a, R x a → ∃ o o', K[a]? = some o ∧ s.heap[x]? = some o' ∧ o'.cls = o.cls ∧ PartVal c.env K s.heap R o'.val o.val
  func : ∀ x a a', R x a → R x a' → a = a'
  memo : ∀ n x, Assoc.get? s.memo n = some x → ∃ r, W n r ∧ R x r.addr
  tc : TcOk c.env c.store s.tcache
  reg : RegInv P s.reg

/-- `x` is loaded and is a part of `a` -/
def Gets (P : Nat → Prop) (K : Heap) (W : Recs) (c : LCtx) (R : Addr → Addr → Prop) (s : LState) (a x : Addr) (s' : LState) : Prop :=
  ∃ R', (∀ x a, R x a → R' x a) ∧ s.heap <+: s'.heap ∧ PLoad P K W c R' s' ∧ R' x a

variable {P : Nat → Prop} {base : Nat} {K : Heap} {W : Recs} {c : LCtx} {R : Addr → Addr → Prop} {s : LState}

/-- an object that is not a part of anything -/
theorem PLoad.grow (h : PLoad P K W c R s) {s' : LState} (hp : s.heap <+: s'.heap) (hm : s'.memo = s.memo) (ht : s'.tcache = s.tcache) (hr : s'.reg = s.reg) :
    PLoad P K W c R s' where
  zero := getElem?_prefix hp h.zero
  part x a hx := by
    obtain ⟨o, o', h1, h2, h3, h4⟩ := h.part x a hx
    exact ⟨o, o', h1, getElem?_prefix hp h2, h3, h4.mono hp fun _ _ h => h⟩
  func := h.func
  memo := by rw [hm]; exact h.memo
  tc := by rw [ht]; exact h.tc
  reg := by rw [hr]; exact h.reg

theorem Gets.after {R1 : Addr → Addr → Prop} {s1 : LState} {a x s'} (hR : ∀ x a, R x a → R1 x a) (hp : s.heap <+: s1.heap) (h : Gets P K W c R1 s1 a x s') :
    Gets P K W c R s a x s' := by
  obtain ⟨R', h1, h2, h3, h4⟩ := h
  exact ⟨R', fun x a h => h1 _ _ (hR _ _ h), hp.trans h2, h3, h4⟩

/-- a new object that is a part of `a` -/
theorem PLoad.alloc (h : PLoad P K W c R s) {a : Addr} {o o' : Obj} (ho : K[a]? = some o) (hc : o'.cls = o.cls) (hv : PartVal c.env K s.heap R o'.val o.val) :
    Yields (lAlloc o') s (Gets P K W c R s a) := by
  refine .of_ok rfl ?_
  have hp : s.heap <+: s.heap ++ [o'] := List.prefix_append _ _
  have hlt : ∀ x b, R x b → x < s.heap.length := fun x b hx => by
    obtain ⟨_, _, _, h2, _⟩ := h.part x b hx
    exact lt_of_getElem? h2
  refine ⟨fun x b => R x b ∨ (x = s.heap.length ∧ b = a), fun x b hx => .inl hx, hp, ⟨getElem?_prefix hp h.zero, ?_, ?_, ?_, h.tc, h.reg⟩, .inr ⟨rfl, rfl⟩⟩
  · rintro x b (hx | ⟨rfl, rfl⟩)
    · obtain ⟨q, q', h1, h2, h3, h4⟩ := h.part x b hx
      exact ⟨q, q', h1, getElem?_prefix hp h2, h3, h4.mono hp fun _ _ h => .inl h⟩
    · exact ⟨o, o', ho, by simp, hc, hv.mono hp fun _ _ h => .inl h⟩
  · rintro x b b' (hx | ⟨rfl, rfl⟩) (hy | ⟨hy, rfl⟩)
    · exact h.func _ _ _ hx hy
    · have := hlt _ _ hx; omega
    · have := hlt _ _ hy; omega
    · rfl
  · intro n x hn
    obtain ⟨r, h1, h2⟩ := h.memo n x hn
    exact ⟨r, h1, .inl h2⟩

theorem PLoad.atom (h : PLoad P K W c R s) {a : Addr} {o : Obj} (ho : K[a]? = some o) (hv : o.val.isAtom = true) :
    Yields (lAlloc o) s (Gets P K W c R s a) := h.alloc ho rfl (.atom hv)

/-- what is left of nothing -/
theorem PLoad.at_zero (h : PLoad P K W c R s) {a : Addr} (hR : R 0 a) : K[a]? = some unitObj := by
  obtain ⟨⟨cl, v⟩, o', h1, h2, h3, h4⟩ := h.part 0 a hR
  rw [h.zero] at h2; simp at h2; subst h2
  rw [h1]
  simp only [unitObj] at h3 h4 ⊢
  subst h3
  cases h4 with
  | atom h => simp [Val.isAtom] at h
  | seq h =>
    rcases h with h | ⟨d, h⟩ <;> cases h <;> rfl

/-- the empty tuple -/
theorem PLoad.unit (hh : PHyp P base K W c) (h : PLoad P K W c R s) {a : Addr} (ho : K[a]? = some unitObj) : Gets P K W c R s a nobody s := by
  refine ⟨fun x b => R x b ∨ (x = 0 ∧ b = a), fun x b hx => .inl hx, List.prefix_rfl, ⟨h.zero, ?_, ?_, ?_, h.tc, h.reg⟩, .inr ⟨rfl, rfl⟩⟩
  · rintro x b (hx | ⟨rfl, rfl⟩)
    · obtain ⟨q, q', h1, h2, h3, h4⟩ := h.part x b hx
      exact ⟨q, q', h1, h2, h3, h4.mono List.prefix_rfl fun _ _ h => .inl h⟩
    · exact ⟨_, _, ho, h.zero, rfl, .seq (.inl .nil)⟩
  · rintro x b b' (hx | ⟨rfl, rfl⟩) (hy | ⟨hy0, rfl⟩)
    · exact h.func _ _ _ hx hy
    · subst hy0; exact hh.good.unit _ _ (h.at_zero hx) ho
    · exact hh.good.unit _ _ ho (h.at_zero hy)
    · rfl
  · intro n x hn
    obtain ⟨r, h1, h2⟩ := h.memo n x hn
    exact ⟨r, h1, .inl h2⟩

/-- calling the class of the program -/
theorem PLoad.construct (h : PLoad P K W c R s) {a : Addr} {o : Obj} {k : Nat} {arg : CtorArg} {v : Val} (ho : K[a]? = some o) (hk : o.cls = .user k)
    (hc : (c.env.u k).ctor arg = .ok v) (hv : PartVal c.env K s.heap R v o.val) : Yields (Verif.construct c.env k arg) s (Gets P K W c R s a) := by
  have := h.alloc (o' := ⟨.user k, v⟩) ho hk.symm hv
  intro x s' hx
  rw [construct_ok hc] at hx
  exact this x s' hx

/-- several new objects -/
theorem lAllocs_part (h : PLoad P K W c R s) : ∀ (os : List Obj), ∃ xs s1, lAllocs os s = (.ok xs, s1) ∧ PLoad P K W c R s1 ∧ s.heap <+: s1.heap ∧
    All2 (fun x o => s1.heap[x]? = some o) xs os := by
  intro os
  induction os generalizing s with
  | nil => exact ⟨[], s, rfl, h, List.prefix_rfl, .nil⟩
  | cons o os ih =>
    have hp : s.heap <+: s.heap ++ [o] := List.prefix_append _ _
    obtain ⟨xs, s1, h1, h2, h3, h4⟩ := ih (s := { s with heap := s.heap ++ [o] }) (h.grow hp rfl rfl rfl)
    refine ⟨s.heap.length :: xs, s1, ?_, h2, hp.trans h3, .cons (getElem?_prefix h3 (by simp)) h4⟩
    simp only [lAllocs]
    rw [M.bind_of_ok (x := lAlloc o) (a := s.heap.length) (s1 := { s with heap := s.heap ++ [o] }) rfl, M.bind_of_ok h1]
    rfl

/-! ### datasets -/

theorem part_scalar (h : PLoad P K W c R s) {a : Addr} {o : Obj} (ho : K[a]? = some o) (hok : ObjOk c.env o) {d : Data}
    (hd : (∃ i, o.val = .int i ∧ (d = .scalar (.i i) ∨ d = .raw (asciiBytes (showInt i)) ∧ 63 < bitLength i ∧ digitsOk c.env i = true)) ∨
      (∃ b, o.val = .bool b ∧ d = .scalar (.b b)) ∨ (∃ f, o.val = .float f ∧ d = .scalar (.f f)) ∨ ∃ f g, o.val = .cplx f g ∧ d = .scalar (.c f g)) :
    Yields (loadScalar c.env d o.cls) s (Gets P K W c R s a) := by
  have at' : o.val.isAtom = true := by rcases hd with ⟨i, h, _⟩ | ⟨b, h, _⟩ | ⟨f, h, _⟩ | ⟨f, g, h, _⟩ <;> rw [h] <;> rfl
  have key := h.atom ho at'
  suffices loadScalar c.env d o.cls s = lAlloc o s by intro x s' hx; rw [this] at hx; exact key x s' hx
  obtain ⟨cl, val⟩ := o
  rcases hd with ⟨i, hv, rfl | ⟨rfl, hb, hdg⟩⟩ | ⟨b, hv, rfl⟩ | ⟨f, hv, rfl⟩ | ⟨f, g, hv, rfl⟩ <;> simp only at hv <;> subst hv
  · cases cl <;> simp [ObjOk, NativeOk] at hok
    · rfl
    · exact construct_ok hok.2.2.1 s
  · have := showInt_length hb
    simp only [loadScalar]
    rw [if_neg (by omega)]
    cases cl <;> simp [ObjOk, NativeOk] at hok
    · simp only [bytesText_ascii, parseInt_showInt, hdg, if_true]
    · exact construct_ok hok.2.2.2 s
  · cases cl <;> simp [ObjOk, NativeOk, UserOk] at hok
    rfl
  · cases cl <;> simp [ObjOk, NativeOk, UserOk] at hok
    · rfl
    · exact construct_ok hok.2.2 s
  · cases cl <;> simp [ObjOk, NativeOk, UserOk] at hok
    · rfl
    · exact construct_ok hok.2.2 s

theorem part_text (h : PLoad P K W c R s) {a : Addr} {o : Obj} (ho : K[a]? = some o) (hok : ObjOk c.env o) {b : Bytes} {attrs : Attrs}
    (hat : Assoc.get? attrs "str_type" = some (.bytes (o.cls.name c.env.u))) (hd : (∃ t, o.val = .str t ∧ utf8Encode t = some b) ∨ o.val = .bytes b) :
    Yields (loadList c.env (.chars b) attrs o.cls) s (Gets P K W c R s a) := by
  have at' : o.val.isAtom = true := by rcases hd with ⟨i, h, _⟩ | h <;> rw [h] <;> rfl
  have key := h.atom ho at'
  suffices loadList c.env (.chars b) attrs o.cls s = lAlloc o s by intro x s' hx; rw [this] at hx; exact key x s' hx
  obtain ⟨cl, val⟩ := o
  rcases hd with ⟨t, hv, hb⟩ | hv <;> simp only at hv <;> subst hv
  · cases cl <;> simp [ObjOk, NativeOk, UserOk] at hok
    simp only [loadList]
    rw [if_pos (by rw [hat]; rfl), utf8Decode_encode hb]
  · cases cl <;> simp [ObjOk, NativeOk, UserOk] at hok
    · simp only [loadList]
      rw [if_neg (by rw [hat]; simp [Cls.name])]
    · simp only [loadList]
      rw [if_neg (by rw [hat]; simp [Cls.name, hok.2.2.1])]
      exact construct_ok hok.2.2.2 s

/-- a list, tuple or instance of a class derived from them, from some items -/
theorem part_mkSeq (hh : PHyp P base K W c) (h : PLoad P K W c R s) {a : Addr} {o : Obj} (ho : K[a]? = some o) {as : List Addr} (hv : o.val = .seq as) {xs : List Addr}
    (hx : ItemsPart K s.heap R xs as) : Yields (mkSeq c.env o.cls xs) s (Gets P K W c R s a) := by
  have hok := hh.ok ho
  obtain ⟨cl, val⟩ := o
  simp only at hv; subst hv
  cases cl <;> simp [ObjOk, NativeOk, UserOk] at hok
  · exact h.alloc ho rfl (.seq hx)
  · simp only [mkSeq]
    by_cases he : xs = []
    · rw [if_pos he]
      refine .pure (h.unit hh ?_)
      subst he
      rw [ho]
      rcases hx with h | ⟨d, h⟩ <;> cases h <;> rfl
    · rw [if_neg he]
      exact h.alloc ho rfl (.seq hx)
  · exact h.construct ho rfl (hok.2.2.2 xs) (.seq hx)

theorem part_seqNil (hh : PHyp P base K W c) (h : PLoad P K W c R s) {a : Addr} {o : Obj} (ho : K[a]? = some o) (hv : o.val = .seq []) {t : String} {attrs : Attrs} :
    Yields (loadList c.env (.null t) attrs o.cls) s (Gets P K W c R s a) := by
  have hok := hh.ok ho
  obtain ⟨cl, val⟩ := o
  simp only at hv; subst hv
  cases cl <;> simp [ObjOk, NativeOk, UserOk] at hok
  · exact h.alloc ho rfl (.seq (.inl .nil))
  · exact .pure (h.unit hh ho)
  · exact h.construct ho rfl hok.2.2.1 (.seq (.inl .nil))

theorem All2.comp {α β γ : Type} {r : α → β → Prop} {q : β → γ → Prop} {xs ys zs} (h : All2 r xs ys) (h' : All2 q ys zs) :
    All2 (fun x z => ∃ y, r x y ∧ q y z) xs zs := by
  induction h generalizing zs with
  | nil => cases h'; exact .nil
  | cons h1 _ ih => cases h' with | cons h2 h3 => exact .cons ⟨_, h1, h2⟩ (ih h3)

theorem setAdd_mem {env : Env} {h : Heap} {l l' : List Addr} {a : Addr} (hl : setAdd env h l a = .ok l') : ∀ x ∈ l', x ∈ l ∨ x = a := by
  unfold setAdd at hl
  split at hl
  · simp at hl
  · split at hl
    · simp at hl; subst hl; exact fun x hx => .inl hx
    · simp at hl; subst hl
      intro x hx; simpa using hx

theorem setOf_mem {env : Env} {h : Heap} : ∀ {as l l' : List Addr}, setOf env h l as = .ok l' → ∀ x ∈ l', x ∈ l ∨ x ∈ as
  | [], l, l', hl => by simp [setOf] at hl; subst hl; exact fun x hx => .inl hx
  | a :: as, l, l', hl => by
    simp only [setOf] at hl
    split at hl
    · simp at hl
    · next c1 h1 =>
      intro x hx
      rcases setOf_mem hl x hx with h2 | h2
      · rcases setAdd_mem h1 x h2 with h3 | rfl
        · exact .inl h3
        · exact .inr (by simp)
      · exact .inr (by simp [h2])

/-- a set of some items -/
theorem part_mkSet (hh : PHyp P base K W c) (h : PLoad P K W c R s) {a : Addr} {o : Obj} (ho : K[a]? = some o) {as : List Addr} (hv : o.val = .set as) {xs : List Addr}
    (hx : ∀ x ∈ xs, ∃ b ∈ as, R x b ∨ ∃ d, NumOf K s.heap d x b) : Yields (mkSet c.env o.cls xs) s (Gets P K W c R s a) := by
  have hok := hh.ok ho
  obtain ⟨cl, val⟩ := o
  simp only at hv; subst hv
  cases cl <;> simp [ObjOk, NativeOk, UserOk] at hok
  · exact h.alloc ho rfl (.set hx)
  · exact h.construct ho rfl (hok.2.2 xs) (.set hx)

/-- numbers in a sequence or set -/
theorem part_vec (hh : PHyp P base K W c) (h : PLoad P K W c R s) {a : Addr} {o : Obj} (ho : K[a]? = some o) {as : List Addr} (hv : o.val = .seq as ∨ o.val = .set as)
    {d : DT} {vs : List NpVal} (hc : All2 (fun o' a => ∃ o, K[a]? = some o ∧ SameNum d o o') (vs.map fun v => (⟨v.cls, .np v⟩ : Obj)) as) {attrs : Attrs} :
    Yields (loadList c.env (.vec d vs) attrs o.cls) s (Gets P K W c R s a) := by
  have hok := hh.ok ho
  obtain ⟨xs, s1, h1, h2, h3, h4⟩ := lAllocs_part h (vs.map fun v => (⟨v.cls, .np v⟩ : Obj))
  have hn : All2 (NumOf K s1.heap d) xs as := (h4.comp hc).mono fun x b ⟨o', e1, o, e2, e3⟩ => ⟨o, o', e2, e1, e3⟩
  refine Yields.mono (Q := Gets P K W c R s1 a) ?_ fun x s' hx => hx.after (fun _ _ h => h) h3
  intro y s' hy
  simp only [loadList] at hy
  rw [M.bind_of_ok h1] at hy
  obtain ⟨cl, val⟩ := o
  rcases hv with hv | hv <;> simp only at hv <;> subst hv
  · have key := part_mkSeq hh h2 ho rfl (.inr ⟨d, hn⟩)
    cases cl <;> simp [ObjOk, NativeOk, UserOk] at hok
    all_goals exact key y s' hy
  · cases cl <;> simp [ObjOk, NativeOk, UserOk] at hok
    · have : Yields (do
        let s ← M.get
        let items ← M.ofExcept (setOf c.env s.heap [] xs)
        mkSet c.env .set items : LM Addr) s1 (Gets P K W c R s1 a) := by
        refine .bind (Q' := fun st s' => s' = s1) (.get rfl) fun st s' hs => ?_
        subst hs
        refine .bind (Q' := fun l s2 => s2 = s' ∧ ∀ x ∈ l, x ∈ xs) (.ofExcept fun l hl => ⟨rfl, fun x hx => ?_⟩) fun l s' hs => ?_
        · rcases setOf_mem hl x hx with h | h
          · simp at h
          · exact h
        · obtain ⟨rfl, hs⟩ := hs
          refine part_mkSet hh h2 ho rfl fun x hx => ?_
          obtain ⟨b, e1, e2⟩ := hn.mem (hs x hx)
          exact ⟨b, e1, .inr ⟨d, e2⟩⟩
      exact this y s' hy
    · exact h2.construct ho rfl (hok.2.2 xs) (.set fun x hx => by obtain ⟨b, e1, e2⟩ := hn.mem hx; exact ⟨b, e1, .inr ⟨d, e2⟩⟩) y s' hy

theorem part_np (h : PLoad P K W c R s) {a : Addr} {o : Obj} (ho : K[a]? = some o) (hok : ObjOk c.env o) {v : NpVal} (hv : o.val = .np v) {attrs : Attrs}
    (hat : Assoc.get? attrs "np_dtype" = some (.dt v.dt)) : Yields (loadNpScalar (.scalar v) attrs) s (Gets P K W c R s a) := by
  have key := h.atom ho (by rw [hv]; rfl)
  suffices loadNpScalar (.scalar v) attrs s = lAlloc o s by intro x s' hx; rw [this] at hx; exact key x s' hx
  obtain ⟨cl, val⟩ := o
  simp only at hv; subst hv
  simp only [loadNpScalar, hat, if_true]
  cases cl <;> cases v <;> simp [ObjOk, NativeOk, UserOk] at hok <;> rfl

theorem part_arr (h : PLoad P K W c R s) {a : Addr} {o : Obj} (ho : K[a]? = some o) (hok : ObjOk c.env o) {d : DT} {shape data} (hv : o.val = .arr d shape data)
    {attrs : Attrs} (hat : Assoc.get? attrs "np_dtype" = some (.dt d)) : Yields (loadNdarray (.array d shape data) attrs o.cls) s (Gets P K W c R s a) := by
  have key := h.atom ho (by rw [hv]; rfl)
  suffices loadNdarray (.array d shape data) attrs o.cls s = lAlloc o s by intro x s' hx; rw [this] at hx; exact key x s' hx
  obtain ⟨cl, val⟩ := o
  simp only at hv; subst hv
  simp only [loadNdarray, hat, loadNumArray, ne_eq, not_true, if_false]
  cases cl <;> simp [ObjOk, NativeOk, UserOk] at hok
  · rfl
  · rw [if_pos hok]

theorem part_sstr (h : PLoad P K W c R s) {a : Addr} {o : Obj} (ho : K[a]? = some o) (hok : ObjOk c.env o) {w : Nat} {t : PyStr} (hv : o.val = .sarr w [] [t])
    {b : Bytes} (hb : utf8Encode t = some b) {attrs : Attrs} (hat : Assoc.get? attrs "np_dtype" = some (.udt w)) {cls : Cls} :
    Yields (loadNdarray (.chars b) attrs cls) s (Gets P K W c R s a) := by
  have key := h.atom ho (by rw [hv]; rfl)
  suffices loadNdarray (.chars b) attrs cls s = lAlloc o s by intro x s' hx; rw [this] at hx; exact key x s' hx
  obtain ⟨cl, val⟩ := o
  simp only at hv; subst hv
  cases cl <;> simp [ObjOk, NativeOk, UserOk, sarrOk] at hok
  simp only [loadNdarray, hat, loadStrArray, utf8Decode_encode hb, if_neg hok.1.1, fixStr_of_width hok.2]

theorem part_pickled (h : PLoad P K W c R s) {a : Addr} {o : Obj} (ho : K[a]? = some o) (hok : ObjOk c.env o) {st : Nat} (hv : o.val = .opaque st true) {attrs : Attrs} :
    Yields (loadPickled c.env (.pickleObj o.cls st) attrs) s (Gets P K W c R s a) := by
  have key := h.atom ho (by rw [hv]; rfl)
  suffices loadPickled c.env (.pickleObj o.cls st) attrs s = lAlloc o s by intro x s' hx; rw [this] at hx; exact key x s' hx
  obtain ⟨cl, val⟩ := o
  simp only at hv; subst hv
  simp only [loadPickled, importable_of_ok hok, if_true]

/-! ### class and loader of a node -/

theorem resolve_part (h : PLoad P K W c R s) {nd : Node} {cl : Cls} {e : NodeId} (ht : Assoc.get? nd.attrs "type" = some (.ref e))
    (he : EntryOk c.env c.store cl e) (hi : clsImportable c.env cl = true) :
    ∃ s1, resolveType c nd s = (.ok ⟨cl, (expected c.env cl).2.base, (expected c.env cl).2.base, nd.isGroup⟩, s1) ∧
      PLoad P K W c R s1 ∧ s1.heap = s.heap ∧ s1.memo = s.memo := by
  obtain ⟨en, b, bn, h1, h2, h3, h4, h5⟩ := id he
  unfold resolveType
  rw [ht]
  simp only []
  have hti : typeInfo c.env cl = .known cl (expected c.env cl).2.base := by unfold typeInfo; rw [if_pos hi]
  cases hc : Assoc.get? s.tcache e with
  | some ti =>
    have hk := h.tc e ti cl hc he
    rw [hti] at hk
    subst hk
    refine ⟨s, ?_, h, rfl, rfl⟩
    rw [M.bind_of_ok (a := .known cl (expected c.env cl).2.base) (s1 := s)]
    · rfl
    · unfold resolveEntry
      rw [h1]
      simp only []
      rw [M.bind_of_ok (M.get_apply s), hc]
      rfl
  | none =>
    refine ⟨{ s with tcache := Assoc.put s.tcache e (typeInfo c.env cl) }, ?_, ?_, rfl, rfl⟩
    · rw [M.bind_of_ok (a := typeInfo c.env cl) (s1 := { s with tcache := Assoc.put s.tcache e (typeInfo c.env cl) })]
      · rw [hti]; rfl
      · unfold resolveEntry
        rw [h1]
        simp only []
        rw [M.bind_of_ok (M.get_apply s), hc]
        simp only [h3, h4, h5, unps_ps, h2]
        rfl
    · exact { h with
        tc := by
          intro e' ti cl' h' he'
          simp only [Assoc.get?_put] at h'
          split at h'
          · next hee =>
            subst hee
            simp at h'; subst h'
            obtain ⟨en', b', bn', k1, k2, k3, k4, k5⟩ := he'
            rw [h1] at k1; simp at k1; subst k1
            rw [h2] at k2; simp at k2; subst k2
            rfl
          · exact h.tc e' ti cl' h' he' }

/-- the loader for a class is found -/
theorem loader_part (hh : PHyp P base K W c) (h : PLoad P K W c R s) {cl : Cls} (hg : GoodCls P c.env cl) (b : Option String) :
    ∃ s1, lOnReg (loadLoader c.env c.mgr cl b) s = (.ok (expected c.env cl), s1) ∧ PLoad P K W c R s1 ∧ s1.heap = s.heap ∧ s1.memo = s.memo ∧
      BaseReady s1.reg (expected c.env cl).2.base := by
  obtain ⟨r', e1, e2, e3, e4⟩ := loadLoader_spec (m := c.mgr) hh.env hh.mgr.dumps hg b h.reg
  refine ⟨{ s with reg := r' }, ?_, { h with reg := e2 }, rfl, rfl, e4⟩
  unfold lOnReg; rw [e1]

/-! ### the items of a container -/

/-- appending to a container makes at most a dict key -/
theorem contAppend_part (h : PLoad P K W c R s) {cont cont' : Cont} {name : PyStr} {x : Addr} {attrs : Attrs} {s'}
    (hx : contAppend c cont name x attrs s = (.ok cont', s')) : PLoad P K W c R s' ∧ s.heap <+: s'.heap := by
  have pure_ok : ∀ {q : Except PyErr Cont}, (M.ofExcept q : LM Cont) s = (.ok cont', s') → s' = s := by
    intro q hq; cases q <;> simp [M.ofExcept] at hq; exact hq.2.symm
  have bind_ok : ∀ {α : Type} {q : Except PyErr α} {f : α → Cont}, (do let l ← (M.ofExcept q : LM α); pure (f l) : LM Cont) s = (.ok cont', s') → s' = s := by
    intro α q f hq
    obtain ⟨l, s1, h1, h2⟩ := M.bind_ok_iff.1 hq
    cases q <;> simp [M.ofExcept] at h1
    rw [M.pure_apply] at h2
    simp at h2
    rw [← h2.2, ← h1.2]
  cases cont with
  | root l => cases hx; exact ⟨h, List.prefix_rfl⟩
  | expand l => cases hx; exact ⟨h, List.prefix_rfl⟩
  | nothing => cases hx; exact ⟨h, List.prefix_rfl⟩
  | masked cls at' l => cases hx; exact ⟨h, List.prefix_rfl⟩
  | recover b at' l =>
    simp only [contAppend] at hx
    rw [M.bind_of_ok (M.get_apply s)] at hx
    cases hx; exact ⟨h, List.prefix_rfl⟩
  | list cls l => rw [bind_ok hx]; exact ⟨h, List.prefix_rfl⟩
  | ndarray cls at' l o => rw [bind_ok hx]; exact ⟨h, List.prefix_rfl⟩
  | sparse cls d i p sh => rw [pure_ok hx]; exact ⟨h, List.prefix_rfl⟩
  | set cls l =>
    simp only [contAppend] at hx
    rw [M.bind_of_ok (M.get_apply s)] at hx
    rw [bind_ok hx]; exact ⟨h, List.prefix_rfl⟩
  | dict cls l =>
    simp only [contAppend] at hx
    obtain ⟨l', s1, h1, h2⟩ := M.bind_ok_iff.1 hx
    rw [M.pure_apply] at h2
    simp at h2
    obtain ⟨_, rfl⟩ := h2
    have : Yields (dictAppend c.env l name x attrs) s fun _ s' => PLoad P K W c R s' ∧ s.heap <+: s'.heap := by
      unfold dictAppend
      refine .bind (Q' := fun _ s' => s' = s) ?_ fun kbt s1 hs => ?_
      · split
        · exact .pure rfl
        · exact .pure rfl
        · exact .throw
      · subst hs
        refine .bind (Q' := fun _ s' => s' = s1) (.ofExcept fun _ _ => rfl) fun key s2 hs => ?_
        subst hs
        cases key with
        | none => exact .ofExcept fun _ _ => ⟨h, List.prefix_rfl⟩
        | some o =>
          refine .bind (Q' := fun _ s' => PLoad P K W c R s' ∧ s2.heap <+: s'.heap)
            (.of_ok rfl ⟨h.grow (List.prefix_append _ _) rfl rfl rfl, List.prefix_append _ _⟩) fun k s3 hs => ?_
          exact .ofExcept fun _ _ => hs
    exact this l' s1 h1

/-- what is loaded from a node is a part of its object -/
def NodeLoads (P : Nat → Prop) (K : Heap) (W : Recs) (c : LCtx) (fuel : Nat) : Prop :=
  ∀ (R : Addr → Addr → Prop) (s : LState) n r cont name cont' s', W n r → PLoad P K W c R s → loadNode c fuel cont name n s = (.ok cont', s') →
    ∃ x nd R1 s1 s2, c.store[n]? = some nd ∧ (∀ x a, R x a → R1 x a) ∧ s.heap <+: s1.heap ∧ PLoad P K W c R1 s1 ∧ R1 x r.addr ∧
      contAppend c cont name x nd.attrs s1 = (.ok cont', s2) ∧ PLoad P K W c R1 s' ∧ s'.heap = s2.heap ∧ s1.heap <+: s2.heap

/-- the state of a container is kept while one more item is appended -/
def PAppends (P : Nat → Prop) (K : Heap) (W : Recs) (c : LCtx) (I : Cont → (Addr → Addr → Prop) → Heap → Prop) (p : PyStr × NodeId) : Prop :=
  ∃ r, W p.2 r ∧ ∀ cont (R : Addr → Addr → Prop) (s : LState) x (nd : Node) cont' s', I cont R s.heap → PLoad P K W c R s → R x r.addr →
    Assoc.get? nd.attrs "base_type" = none → (∀ k v, IdxKey k → Assoc.get? nd.attrs k = some v → (k, v) ∈ r.attrs) →
    contAppend c cont p.1 x nd.attrs s = (.ok cont', s') → I cont' R s'.heap

theorem fold_part (hh : PHyp P base K W c) {fuel : Nat} (ih : NodeLoads P K W c fuel) {I : Cont → (Addr → Addr → Prop) → Heap → Prop}
    (mono : ∀ cont (R R' : Addr → Addr → Prop) L L', (∀ x a, R x a → R' x a) → L <+: L' → I cont R L → I cont R' L') :
    ∀ (items : List (PyStr × NodeId)), (∀ p ∈ items, PAppends P K W c I p) → ∀ (cont : Cont) (R : Addr → Addr → Prop) (s : LState),
      PLoad P K W c R s → I cont R s.heap →
      Yields (M.foldEach (fun sub (p : PyStr × NodeId) => loadNode c fuel sub p.1 p.2) cont items) s fun cont' s' =>
        ∃ R', (∀ x a, R x a → R' x a) ∧ s.heap <+: s'.heap ∧ PLoad P K W c R' s' ∧ I cont' R' s'.heap := by
  intro items
  induction items with
  | nil => exact fun _ cont R s h hI => .pure ⟨R, fun _ _ h => h, List.prefix_rfl, h, hI⟩
  | cons p items ih2 =>
    intro ha cont R s h hI
    simp only [M.foldEach]
    refine .bind (Q' := fun cont' s' => ∃ R', (∀ x a, R x a → R' x a) ∧ s.heap <+: s'.heap ∧ PLoad P K W c R' s' ∧ I cont' R' s'.heap) ?_ ?_
    · intro cont' s' hl
      obtain ⟨r, hW, hap⟩ := ha p (by simp)
      obtain ⟨x, nd, R1, s1, s2, e1, e2, e3, e4, e5, e6, e7, e8, e9⟩ := ih R s p.2 r cont p.1 cont' s' hW h hl
      obtain ⟨nd', f1, f2, f3, _⟩ := hh.draft _ _ hW
      rw [e1] at f1; simp at f1; subst f1
      refine ⟨R1, e2, by rw [e8]; exact e3.trans e9, e7, ?_⟩
      rw [e8]
      exact hap cont R1 s1 x nd cont' s2 (mono _ _ _ _ _ e2 e3 hI) e4 e5 f2 f3 e6
    · rintro cont' s' ⟨R1, e1, e2, e3, e4⟩
      refine (ih2 (fun q hq => ha q (by simp [hq])) cont' R1 s' e3 e4).mono ?_
      rintro cont2 s2 ⟨R2, f1, f2, f3, f4⟩
      exact ⟨R2, fun x a h => f1 x a (e1 x a h), e2.trans f2, f3, f4⟩

/-- loading a container: a fold and a conversion -/
theorem cont_part (hh : PHyp P base K W c) {fuel : Nat} (ih : NodeLoads P K W c fuel) {I : Cont → (Addr → Addr → Prop) → Heap → Prop}
    (mono : ∀ cont (R R' : Addr → Addr → Prop) L L', (∀ x a, R x a → R' x a) → L <+: L' → I cont R L → I cont R' L')
    {ls : List (PyStr × NodeId)} (ha : ∀ p ∈ ls, PAppends P K W c I p) {cont : Cont} (h : PLoad P K W c R s) (hI : I cont R s.heap) {a : Addr}
    (hc : ∀ cont' (R' : Addr → Addr → Prop) s', PLoad P K W c R' s' → I cont' R' s'.heap → Yields (contConvert c cont') s' (Gets P K W c R' s' a)) :
    Yields (do
      let sub ← M.foldEach (fun sub (p : PyStr × NodeId) => loadNode c fuel sub p.1 p.2) cont (c.order ls)
      contConvert c sub : LM Addr) s (Gets P K W c R s a) := by
  refine .bind (fold_part hh ih mono (c.order ls) (fun p hp => ha p (hh.order ls p hp)) cont R s h hI) ?_
  rintro cont' s1 ⟨R1, e1, e2, e3, e4⟩
  exact (hc cont' R1 s1 e3 e4).mono fun x s2 hx => hx.after e1 e2

/-! ### lists, tuples and sets -/

theorem takeWhile_digits (ds ys : List Nat) (y : Nat) (hd : ∀ c ∈ ds, isDigit c = true) (hy : isDigit y = false) :
    (ds ++ y :: ys).takeWhile isDigit = ds := by
  induction ds with
  | nil => simp [List.takeWhile, hy]
  | cons d ds ih =>
    simp only [List.cons_append, List.takeWhile, hd d (by simp)]
    rw [ih fun c hc => hd c (by simp [hc])]

theorem trailingDigits_dataName (i : Nat) : trailingDigits (dataName i) = some i := by
  unfold trailingDigits dataName
  rw [List.reverse_append]
  rw [show (ps "data").reverse = 97 :: [116, 97, 100] from rfl, takeWhile_digits _ _ _ (fun c hc => digits_isDigit i c (List.mem_reverse.1 hc)) rfl, List.reverse_reverse]
  exact parseNat_digits i

/-- the index of an item is found even if the attribute was not written -/
theorem listIndex_part {i : Nat} {x : Addr} {attrs : Attrs}
    (h : ∀ v, Assoc.get? attrs "item_index" = some v → v = .int i) : listIndex (dataName i) x attrs = .ok (some i) := by
  unfold listIndex
  cases ha : Assoc.get? attrs "item_index" with
  | none => simp only [trailingDigits_dataName]
  | some v =>
    rw [h v ha]
    simp

/-- the content of a container with numbered items: each is missing or part of an object `T` gives for its number -/
def ListSt (form : List Addr → Cont) (n : Nat) (T : Nat → Addr → Prop) (cont : Cont) (R : Addr → Addr → Prop) (L : Heap) : Prop :=
  ∃ l, cont = form l ∧ l.length = n ∧ ∀ i x, l[i]? = some x → Hole L x ∨ ∃ a, T i a ∧ R x a

theorem ListSt.mono {form n T} : ∀ cont (R R' : Addr → Addr → Prop) L L', (∀ x a, R x a → R' x a) → L <+: L' → ListSt form n T cont R L → ListSt form n T cont R' L' := by
  rintro cont R R' L L' hR hp ⟨l, h1, h2, h3⟩
  exact ⟨l, h1, h2, fun i x hx => (h3 i x hx).imp (·.mono hp) fun ⟨a, h4, h5⟩ => ⟨a, h4, hR _ _ h5⟩⟩

theorem ListSt.init {form n T} {L : Heap} (h0 : L[0]? = some unitObj) {R : Addr → Addr → Prop} : ListSt form n T (form (List.replicate n nobody)) R L := by
  refine ⟨_, rfl, by simp, fun i x hx => .inl ?_⟩
  have hx := (List.mem_replicate.1 (List.mem_of_getElem? hx)).2
  subst hx; exact h0

theorem ListSt.step {n : Nat} {T : Nat → Addr → Prop} {l : List Addr} {R : Addr → Addr → Prop} {L : Heap} (hn : l.length = n) (hl : ∀ i x, l[i]? = some x → Hole L x ∨ ∃ a, T i a ∧ R x a)
    {i : Nat} (hi : i < n) {x a : Addr} (hx : R x a) (hT : T i a) {attrs : Attrs} (hat : ∀ v, Assoc.get? attrs "item_index" = some v → v = .int i) {l'}
    (h : listAppend l (dataName i) x attrs = .ok l') : l'.length = n ∧ ∀ i x, l'[i]? = some x → Hole L x ∨ ∃ a, T i a ∧ R x a := by
  unfold listAppend at h
  rw [listIndex_part hat] at h
  simp only at h
  have hp : padTo nobody l i = l := by
    unfold padTo
    rw [show i + 1 - l.length = 0 by omega]; simp
  rw [hp] at h
  split at h
  · simp only [Except.ok.injEq] at h; subst h
    refine ⟨by simpa using hn, fun j y hy => ?_⟩
    rw [List.getElem?_set] at hy
    split at hy
    · next hij =>
      subst hij
      split at hy
      · simp at hy; subst hy; exact .inr ⟨a, hT, hx⟩
      · simp at hy
    · exact hl j y hy
  · simp at h

/-- the items of a list are appended -/
theorem listCont_appends {cl : Cls} {n : Nat} {T : Nat → Addr → Prop} {i : Nat} (hi : i < n) {m : NodeId} {r : Rec} (hW : W m r) (hT : T i r.addr)
    (hat : r.attrs = [("item_index", .int i)]) : PAppends P K W c (ListSt (.list cl) n T) (dataName i, m) := by
  refine ⟨r, hW, ?_⟩
  rintro cont R s x nd cont' s' ⟨l, rfl, h1, h2⟩ _ hx _ hidx ha
  simp only [contAppend] at ha
  obtain ⟨l', s1, e1, e2⟩ := M.bind_ok_iff.1 ha
  cases hl : listAppend l (dataName i) x nd.attrs with
  | error e => rw [hl] at e1; simp [M.ofExcept] at e1
  | ok l2 =>
    rw [hl] at e1; simp [M.ofExcept] at e1; obtain ⟨rfl, rfl⟩ := e1
    rw [M.pure_apply] at e2; simp at e2; obtain ⟨rfl, rfl⟩ := e2
    obtain ⟨q1, q2⟩ := ListSt.step h1 h2 hi hx hT (fun v hv => by
      have := hidx _ v (.inl rfl) hv
      rw [hat] at this; simpa using this) hl
    exact ⟨_, rfl, q1, q2⟩

theorem listSubs_at {items : List Addr} {sb : Sub} (h : Except.ok sb ∈ listSubs 0 items) :
    ∃ i a, items[i]? = some a ∧ sb = ⟨dataName i, .addr a, [("item_index", .int i)]⟩ := by
  obtain ⟨i, hi⟩ := List.getElem?_of_mem h
  rw [listSubs_get] at hi
  cases ha : items[i]? with
  | none => rw [ha] at hi; simp at hi
  | some a =>
    rw [ha] at hi
    simp at hi
    exact ⟨i, a, ha, hi.symm⟩

theorem part_seqItems (hh : PHyp P base K W c) (h : PLoad P K W c R s) {a : Addr} {o : Obj} (ho : K[a]? = some o) {items : List Addr} (hv : o.val = .seq items)
    {fuel : Nat} (ih : NodeLoads P K W c fuel) {nd : Node} {ls : List (PyStr × NodeId)} (hb : nd.body = .group ls) (hk : LinksOk base K W (listSubs 0 items) nd.body) :
    Yields (do
      let sub ← M.foldEach (fun sub (p : PyStr × NodeId) => loadNode c fuel sub p.1 p.2) (.list o.cls (List.replicate items.length nobody)) (c.order ls)
      contConvert c sub : LM Addr) s (Gets P K W c R s a) := by
  refine cont_part (I := ListSt (.list o.cls) items.length fun i a => items[i]? = some a) hh ih ListSt.mono ?_ h (ListSt.init h.zero) ?_
  · rintro ⟨nm, m⟩ hp
    obtain ⟨sb, x, subs', h1, h2, _, h3, h4⟩ := hk ls hb _ hp
    obtain ⟨i, b, h5, rfl⟩ := listSubs_at h1
    simp only at h2 h4; subst h2
    simp only [SubAt] at h3; subst h3
    exact listCont_appends (lt_of_getElem? h5) h4 h5 rfl
  · rintro cont' R' s' h' ⟨l, rfl, e1, e2⟩
    refine part_mkSeq hh h' ho hv (.inl (All2.of_getElem _ _ e1 fun i x y hx hy => (e2 i x hx).imp id ?_))
    rintro ⟨b, e3, e4⟩
    rw [hy] at e3; simp at e3; subst e3; exact e4

/-- the content of a set container -/
def SetSt (cl : Cls) (items : List Addr) (cont : Cont) (R : Addr → Addr → Prop) (_ : Heap) : Prop :=
  ∃ l, cont = .set cl l ∧ ∀ x ∈ l, ∃ a ∈ items, R x a

theorem part_setItems (hh : PHyp P base K W c) (h : PLoad P K W c R s) {a : Addr} {o : Obj} (ho : K[a]? = some o) {items : List Addr} (hv : o.val = .set items)
    {fuel : Nat} (ih : NodeLoads P K W c fuel) {nd : Node} {ls : List (PyStr × NodeId)} (hb : nd.body = .group ls) (hk : LinksOk base K W (listSubs 0 items) nd.body) :
    Yields (do
      let sub ← M.foldEach (fun sub (p : PyStr × NodeId) => loadNode c fuel sub p.1 p.2) (.set o.cls []) (c.order ls)
      contConvert c sub : LM Addr) s (Gets P K W c R s a) := by
  refine cont_part (I := SetSt o.cls items) hh ih ?_ ?_ h ⟨[], rfl, by simp⟩ ?_
  · rintro cont R R' L L' hR _ ⟨l, h1, h2⟩
    exact ⟨l, h1, fun x hx => by obtain ⟨b, h3, h4⟩ := h2 x hx; exact ⟨b, h3, hR _ _ h4⟩⟩
  · rintro ⟨nm, m⟩ hp
    obtain ⟨sb, x, subs', h1, h2, _, h3, h4⟩ := hk ls hb _ hp
    obtain ⟨i, b, h5, rfl⟩ := listSubs_at h1
    simp only at h2 h4; subst h2
    simp only [SubAt] at h3; subst h3
    refine ⟨_, h4, ?_⟩
    rintro cont R s y nd cont' s' ⟨l, rfl, h6⟩ _ hy _ _ ha
    simp only [contAppend] at ha
    rw [M.bind_of_ok (M.get_apply s)] at ha
    obtain ⟨l', s1, e1, e2⟩ := M.bind_ok_iff.1 ha
    cases hl : setAdd c.env s.heap l y with
    | error e => rw [hl] at e1; simp [M.ofExcept] at e1
    | ok l2 =>
      rw [hl] at e1; simp [M.ofExcept] at e1; obtain ⟨rfl, rfl⟩ := e1
      rw [M.pure_apply] at e2; simp at e2; obtain ⟨rfl, rfl⟩ := e2
      refine ⟨_, rfl, fun z hz => ?_⟩
      rcases setAdd_mem hl z hz with hz | rfl
      · exact h6 z hz
      · exact ⟨_, List.mem_of_getElem? h5, hy⟩
  · rintro cont' R' s' h' ⟨l, rfl, e2⟩
    exact part_mkSet hh h' ho hv fun x hx => by obtain ⟨b, h1, h2⟩ := e2 x hx; exact ⟨b, h1, .inl h2⟩

/-! ### dictionaries -/

/-- an item of the content of a dict container -/
def DItemSt (K : Heap) (es : List (Addr × Addr)) (R : Addr → Addr → Prop) (L : Heap) : DItem → Prop
  | .hole => True
  | .pair k v => ∃ e ∈ es, KeyOf K L k e.1 ∧ R v e.2
  | .item x => ∃ e ∈ es, ∃ p, K[p]? = some ⟨.tuple, .seq [e.1, e.2]⟩ ∧ R x p

theorem DItemSt.mono {es it} {R R' : Addr → Addr → Prop} {L L' : Heap} (hR : ∀ x a, R x a → R' x a) (hp : L <+: L') (h : DItemSt K es R L it) : DItemSt K es R' L' it := by
  cases it with
  | hole => trivial
  | pair k v => obtain ⟨e, h1, h2, h3⟩ := h; exact ⟨e, h1, h2.mono hp, hR _ _ h3⟩
  | item x => obtain ⟨e, h1, p, h2, h3⟩ := h; exact ⟨e, h1, p, h2, hR _ _ h3⟩

def DictSt (K : Heap) (cl : Cls) (es : List (Addr × Addr)) (cont : Cont) (R : Addr → Addr → Prop) (L : Heap) : Prop :=
  ∃ l, cont = .dict cl l ∧ ∀ it ∈ l, DItemSt K es R L it

theorem dictPlace_mem {l l' : List DItem} {it : DItem} {attrs : Attrs} (h : dictPlace l it attrs = .ok l') : ∀ x ∈ l', x ∈ l ∨ x = .hole ∨ x = it := by
  have set : ∀ i, ∀ x ∈ (padTo DItem.hole l i).set i it, x ∈ l ∨ x = .hole ∨ x = it := by
    intro i x hx
    rcases List.mem_or_eq_of_mem_set hx with hx | hx
    · unfold padTo at hx
      rcases List.mem_append.1 hx with hx | hx
      · exact .inl hx
      · exact .inr (.inl (List.mem_replicate.1 hx).2)
    · exact .inr (.inr hx)
  unfold dictPlace at h
  split at h
  · split at h
    · simp only at h
      split at h
      · simp only [Except.ok.injEq] at h; subst h; exact set _
      · simp only [Except.ok.injEq] at h; subst h; exact set _
      · simp at h
    · simp at h
  · simp at h
  · split at h
    · split at h
      · simp only [Except.ok.injEq] at h; subst h; exact fun x hx => .inl hx
      · simp at h
    · simp at h

theorem dictPairs_mem {h : Heap} : ∀ {l : List DItem} {ps}, dictPairs h l = .ok ps → ∀ q ∈ ps,
    DItem.pair q.1 q.2 ∈ l ∨ ∃ a cl, DItem.item a ∈ l ∧ h[a]? = some ⟨cl, .seq [q.1, q.2]⟩ := by
  intro l
  induction l with
  | nil => intro ps hp q hq; simp [dictPairs] at hp; subst hp; simp at hq
  | cons it l ih =>
    intro ps hp q hq
    have tl : ∀ {k v}, (dictPairs h l).map ((k, v) :: ·) = .ok ps → q = (k, v) ∨ DItem.pair q.1 q.2 ∈ l ∨ ∃ a cl, DItem.item a ∈ l ∧ h[a]? = some ⟨cl, .seq [q.1, q.2]⟩ := by
      intro k v hm
      cases hd : dictPairs h l with
      | error e => rw [hd] at hm; simp [Except.map] at hm
      | ok ps' =>
        rw [hd] at hm; simp [Except.map] at hm; subst hm
        rcases List.mem_cons.1 hq with h1 | h1
        · exact .inl h1
        · exact .inr (ih hd q h1)
    cases it with
    | hole => simp [dictPairs] at hp
    | pair k v =>
      rcases tl hp with rfl | h1 | ⟨a, cl, h1, h2⟩
      · exact .inl (by simp)
      · exact .inl (by simp [h1])
      · exact .inr ⟨a, cl, by simp [h1], h2⟩
    | item a =>
      simp only [dictPairs] at hp
      split at hp <;> try (simp at hp; done)
      next cl k v ha =>
      rcases tl hp with rfl | h1 | ⟨a', cl, h1, h2⟩
      · exact .inr ⟨a, cl, by simp, ha⟩
      · exact .inl (by simp [h1])
      · exact .inr ⟨a', cl, by simp [h1], h2⟩

/-- an entry whose key is that of one of some pairs and whose value is that of a pair with an equal key -/
def Entered2 (env : Env) (h : Heap) (qs : List (Addr × Addr)) (e : Addr × Addr) : Prop :=
  (∃ v, (e.1, v) ∈ qs) ∧ ∃ k, KeyEq env h e.1 k ∧ (k, e.2) ∈ qs

theorem mem_putMap {same : Addr → Bool} {es : List (Addr × Addr)} {v : Addr} {e : Addr × Addr}
    (h : e ∈ es.map fun e => if same e.1 then (e.1, v) else e) : ∃ e0 ∈ es, (same e0.1 = true ∧ (e0.1, v) = e) ∨ e0 = e := by
  obtain ⟨e0, h1, h2⟩ := List.mem_map.1 h
  refine ⟨e0, h1, ?_⟩
  by_cases hs : same e0.1 = true
  · rw [if_pos hs] at h2; exact .inl ⟨hs, h2⟩
  · rw [if_neg hs] at h2; exact .inr h2

theorem dictPut_from {env : Env} {h : Heap} {qs es es' : List (Addr × Addr)} {k v : Addr} (hq : (k, v) ∈ qs) (he : ∀ e ∈ es, Entered2 env h qs e)
    (hp : dictPut env h es k v = .ok es') : ∀ e ∈ es', Entered2 env h qs e := by
  unfold dictPut at hp
  split at hp
  · simp at hp
  · next w hw =>
    simp only at hp
    split at hp
    · simp only [Except.ok.injEq] at hp; subst hp
      intro e hm
      obtain ⟨e0, h1, ⟨hs, h2⟩ | h2⟩ := mem_putMap (same := fun b => match view env.u h b with | some x => KV.eqv env.opaqueEq x w | none => false) hm
      · subst h2
        refine ⟨(he e0 h1).1, k, ?_, hq⟩
        cases hv : view env.u h e0.1 with
        | none => simp only [hv] at hs; simp at hs
        | some x => simp only [hv] at hs; exact .inr ⟨x, w, hv, hw, hs⟩
      · subst h2; exact he e0 h1
    · simp only [Except.ok.injEq] at hp; subst hp
      intro e hm
      rcases List.mem_append.1 hm with hm | hm
      · exact he e hm
      · rw [List.mem_singleton.1 hm]; exact ⟨⟨v, hq⟩, k, .inl rfl, hq⟩

theorem dictOf_from {env : Env} {h : Heap} {qs : List (Addr × Addr)} : ∀ {l es es' : List (Addr × Addr)}, (∀ q ∈ l, q ∈ qs) → (∀ e ∈ es, Entered2 env h qs e) →
    dictOf env h es l = .ok es' → ∀ e ∈ es', Entered2 env h qs e := by
  intro l
  induction l with
  | nil => intro es es' _ he hp; simp [dictOf] at hp; subst hp; exact he
  | cons q l ih =>
    obtain ⟨k, v⟩ := q
    intro es es' hl he hp
    simp only [dictOf] at hp
    split at hp
    · simp at hp
    · next es1 h1 =>
      exact ih (fun q hq => hl q (by simp [hq])) (dictPut_from (hl _ (by simp)) he h1) hp

/-- the pairs of a dict container are entries of the dict -/
theorem DictSt.entries (h : PLoad P K W c R s) {es : List (Addr × Addr)} {l : List DItem} (hl : ∀ it ∈ l, DItemSt K es R s.heap it) {qs}
    (hq : dictPairs s.heap l = .ok qs) : ∀ q ∈ qs, ∃ e ∈ es, EntryPart K s.heap R q e := by
  intro q hm
  rcases dictPairs_mem hq q hm with h1 | ⟨x, cl, h1, h2⟩
  · obtain ⟨e, e1, e2, e3⟩ := hl _ h1
    exact ⟨e, e1, .inl ⟨e2, e3⟩⟩
  · obtain ⟨e, e1, p, e2, e3⟩ := hl _ h1
    refine ⟨e, e1, .inr ?_⟩
    obtain ⟨o, o', f1, f2, f3, f4⟩ := h.part _ _ e3
    rw [e2] at f1; simp at f1; subst f1
    rw [h2] at f2; simp at f2; subst f2
    generalize hxs : [q.1, q.2] = xs at f4
    generalize has : [e.1, e.2] = as at f4
    cases f4 with
    | atom h => simp [Val.isAtom] at h
    | seq h => exact h

theorem part_mkDict (hh : PHyp P base K W c) (h : PLoad P K W c R s) {a : Addr} {o : Obj} (ho : K[a]? = some o) {es : List (Addr × Addr)} (hv : o.val = .dict es) {l : List DItem}
    (hl : ∀ it ∈ l, DItemSt K es R s.heap it) : Yields (contConvert c (.dict o.cls l)) s (Gets P K W c R s a) := by
  have hok := hh.ok ho
  simp only [contConvert]
  refine .bind (Q' := fun st s' => st = s ∧ s' = s) (.get ⟨rfl, rfl⟩) ?_
  rintro st s' ⟨rfl, rfl⟩
  refine .bind (Q' := fun qs s2 => s2 = s' ∧ dictPairs s'.heap l = .ok qs) (.ofExcept fun qs hq => ⟨rfl, hq⟩) ?_
  rintro qs s' ⟨rfl, hq⟩
  have hen := DictSt.entries h hl hq
  obtain ⟨cl, val⟩ := o
  simp only at hv; subst hv
  cases cl <;> simp [ObjOk, NativeOk, UserOk] at hok
  · simp only
    refine .bind (Q' := fun es2 s2 => s2 = s' ∧ dictOf c.env s'.heap [] qs = .ok es2) (.ofExcept fun _ hq => ⟨rfl, hq⟩) ?_
    rintro es2 s2 ⟨rfl, hd⟩
    refine h.alloc ho rfl (.dict fun e' he => ?_)
    obtain ⟨⟨v, h1⟩, k, h2, h3⟩ := dictOf_from (fun q hq => hq) (by simp) hd e' he
    exact ⟨⟨v, hen _ h1⟩, k, h2, hen _ h3⟩
  · exact h.construct ho rfl (hok.2.2 qs) (.dict fun e' he => ⟨⟨e'.2, hen _ he⟩, e'.1, .inl rfl, hen _ he⟩)

theorem part_dict (hh : PHyp P base K W c) (h : PLoad P K W c R s) {a : Addr} {o : Obj} (ho : K[a]? = some o) {es : List (Addr × Addr)} (hv : o.val = .dict es)
    {fuel : Nat} (ih : NodeLoads P K W c fuel) {nd : Node} {ls : List (PyStr × NodeId)} (hb : nd.body = .group ls) {K0 : Heap} (hK : K0 <+: K)
    (hk : LinksOk base K W (dictSubs c.env K0 0 es) nd.body) :
    Yields (do
      let sub ← M.foldEach (fun sub (p : PyStr × NodeId) => loadNode c fuel sub p.1 p.2) (.dict o.cls []) (c.order ls)
      contConvert c sub : LM Addr) s (Gets P K W c R s a) := by
  refine cont_part (I := DictSt K o.cls es) hh ih ?_ ?_ h ⟨[], rfl, by simp⟩ ?_
  · rintro cont R R' L L' hR hp ⟨l, h1, h2⟩
    exact ⟨l, h1, fun x hx => (h2 x hx).mono hR hp⟩
  · rintro ⟨nm, m⟩ hp
    obtain ⟨sb, x, subs', h1, h2, _, h3, h4⟩ := hk ls hb _ hp
    obtain ⟨i, k, v, h5, h6⟩ := dictSubs_mem h1
    refine ⟨_, h4, ?_⟩
    rintro cont R s y nd cont' s' ⟨l, rfl, hl⟩ hP hy _ hidx ha
    simp only [contAppend] at ha
    obtain ⟨l', s1, e1, e2⟩ := M.bind_ok_iff.1 ha
    rw [M.pure_apply] at e2; simp at e2; obtain ⟨rfl, rfl⟩ := e2
    simp only at h2 h4 hy hidx
    subst h2
    suffices Yields (dictAppend c.env l sb.name y nd.attrs) s fun l' s' => ∀ it ∈ l', DItemSt K es R s'.heap it from ⟨l', rfl, this l' s1 e1⟩
    unfold dictAppend
    rcases dictSub_idx h6 with ⟨ko, name, kbt, f1, f2, rfl⟩ | ⟨rfl, ko, f1, f2⟩
    · simp only [SubAt] at h3; subst h3
      have f1' := getElem?_prefix hK f1
      obtain ⟨g1, g2⟩ := loadKey_of_keySlot (hh.ok f1') ((hh.good.keys a o es ho hv (hh.live a o ho)).2 k x h5 |>.2 ko f1') f2
      refine .bind (Q' := fun b s' => s' = s ∧ (b = kbt ∨ b = "")) ?_ ?_
      · split
        · next b hb =>
          have := hidx _ _ (.inr (.inr rfl)) hb
          simp at this; subst this
          exact .pure ⟨rfl, .inl rfl⟩
        · exact .pure ⟨rfl, .inr rfl⟩
        · exact .throw
      · rintro b s1 ⟨rfl, hb⟩
        refine .bind (Q' := fun q s' => s' = s1 ∧ q = some ko) (.ofExcept fun q hq => ⟨rfl, ?_⟩) ?_
        · rcases hb with rfl | rfl
          · rw [g1] at hq; simp at hq; exact hq.symm
          · simp [loadKey] at hq
        · rintro q s2 ⟨rfl, rfl⟩
          have hp : s2.heap <+: s2.heap ++ [ko] := List.prefix_append _ _
          refine .bind (Q' := fun z s' => z = s2.heap.length ∧ s'.heap = s2.heap ++ [ko]) (.of_ok rfl ⟨rfl, rfl⟩) ?_
          rintro z s3 ⟨rfl, hz⟩
          refine .ofExcept fun l' hl' it hit => ?_
          rw [hz]
          rcases dictPlace_mem hl' it hit with h7 | rfl | rfl
          · exact (hl it h7).mono (fun _ _ h => h) hp
          · trivial
          · exact ⟨(k, x), h5, ⟨ko, f1', by simp, g2⟩, hy⟩
    · simp only [SubAt] at h3
      refine .bind (Q' := fun b s' => s' = s ∧ (b = "key_value" ∨ b = "")) ?_ ?_
      · split
        · next b hb =>
          have := hidx _ _ (.inr (.inr rfl)) hb
          simp at this; subst this
          exact .pure ⟨rfl, .inl rfl⟩
        · exact .pure ⟨rfl, .inr rfl⟩
        · exact .throw
      · rintro b s1 ⟨rfl, hb⟩
        refine .bind (Q' := fun q s' => s' = s1 ∧ q = none) (.ofExcept fun q hq => ⟨rfl, ?_⟩) ?_
        · rcases hb with rfl | rfl
          · simp [loadKey] at hq; exact hq.symm
          · simp [loadKey] at hq
        · rintro q s2 ⟨rfl, rfl⟩
          refine .ofExcept fun l' hl' it hit => ?_
          rcases dictPlace_mem hl' it hit with h7 | rfl | rfl
          · exact hl it h7
          · trivial
          · exact ⟨(k, v), h5, x, h3.2, hy⟩
  · rintro cont' R' s' h' ⟨l, rfl, e2⟩
    exact part_mkDict hh h' ho hv e2

/-! ### arrays -/

/-- a value without references is complete -/
theorem PLoad.atom_eq (h : PLoad P K W c R s) {x p : Addr} {o : Obj} (hR : R x p) (hp : K[p]? = some o) (ha : o.val.isAtom = true)
    (hs : ∀ w sh ss, o.val ≠ .sarr w sh ss) : s.heap[x]? = some o := by
  obtain ⟨q, q', h1, h2, h3, h4⟩ := h.part x p hR
  rw [hp] at h1; simp at h1; subst h1
  rw [h2]
  obtain ⟨cl, v⟩ := o
  obtain ⟨cl', v'⟩ := q'
  simp only at h3 h4 ha hs; subst h3
  cases h4 <;> first | rfl | (simp [Val.isAtom] at ha; done) | exact absurd rfl (hs _ _ _)

/-- a list of lists made for the dump -/
theorem nested_rowPart (h : PLoad P K W c R s) {Q : Addr → Prop} : ∀ {sh : List Nat} {ls : List Leaf} {p x : Addr},
    (∀ l ∈ ls, ∀ q, LeafAt base K l q → (∀ y, R y q → Q y) ∧ ∀ d y, NumOf K s.heap d y q → Q y) →
    Nested base K .list sh ls p → R x p → RowPart s.heap Q x := by
  intro sh
  induction sh with
  | nil =>
    rintro ls p x hl ⟨l, rfl, h1⟩ hx
    exact .leaf ((hl l (by simp) p h1).1 x hx)
  | cons n sh ih =>
    rintro ls p x hl ⟨_, rows, lss, h1, h2, rfl, h4⟩ hx
    obtain ⟨o, ⟨cl', v'⟩, e1, e2, e3, e4⟩ := h.part x p hx
    rw [h1] at e1; simp at e1; subst e1
    simp only at e3 e4; subst e3
    cases e4 with
    | atom h => simp [Val.isAtom] at h
    | @seq ys _ hi =>
      refine .row e2 fun y hy => ?_
      rcases hi with hi | ⟨d, hi⟩
      · obtain ⟨r, f1, f2⟩ := hi.mem hy
        rcases f2 with f2 | f2
        · exact .hole f2
        · obtain ⟨l, g1, g2⟩ := h4.mem f1
          exact ih (fun l' hl' => hl l' (List.mem_flatten.2 ⟨l, g1, hl'⟩)) g2 f2
      · obtain ⟨r, f1, f2⟩ := hi.mem hy
        obtain ⟨l, g1, g2⟩ := h4.mem f1
        cases sh with
        | nil =>
          obtain ⟨l', rfl, g3⟩ := g2
          exact .leaf ((hl l' (List.mem_flatten.2 ⟨_, g1, by simp⟩) r g3).2 d y f2)
        | cons m sh =>
          obtain ⟨_, rows', _, g3, _⟩ := g2
          obtain ⟨q, q', k1, _, v, w, k2, _⟩ := f2
          rw [g3] at k1; simp at k1; subst k1
          simp [exactNum] at k2

theorem mapM_from {α β : Type} {f : α → Option β} : ∀ {l : List α} {l' : List β}, l.mapM f = some l' → ∀ y ∈ l', ∃ x ∈ l, f x = some y := by
  intro l
  induction l with
  | nil => intro l' h y hy; simp at h; subst h; simp at hy
  | cons a l ih =>
    intro l' h y hy
    rw [List.mapM_cons] at h
    cases ha : f a with
    | none => rw [ha] at h; simp at h
    | some b =>
      cases hl : l.mapM f with
      | none => rw [ha, hl] at h; simp at h
      | some l2 =>
        rw [ha, hl] at h; simp at h; subst h
        rcases List.mem_cons.1 hy with rfl | hy
        · exact ⟨a, by simp, ha⟩
        · obtain ⟨x, h1, h2⟩ := ih hl y hy
          exact ⟨x, by simp [h1], h2⟩

/-- numpy takes lists apart as far as it likes -/
theorem flattenTo_rowPart {L : Heap} {Q : Addr → Prop} (hQ : ∀ y, Q y → ∀ cl items, L[y]? ≠ some ⟨cl, .seq items⟩) : ∀ {sh : List Nat} {a : Addr} {l : List Addr},
    RowPart L Q a → flattenTo L sh a = some l → ∀ x ∈ l, RowPart L Q x := by
  intro sh
  induction sh with
  | nil => intro a l h hl x hx; simp [flattenTo] at hl; subst hl; simp at hx; subst hx; exact h
  | cons n sh ih =>
    intro a l h hl x hx
    simp only [flattenTo] at hl
    split at hl
    · next cl items ha =>
      cases hm : items.mapM (flattenTo L sh) with
      | none => rw [hm] at hl; simp at hl
      | some ll =>
        rw [hm] at hl; simp at hl; subst hl
        obtain ⟨l', h1, h2⟩ := List.mem_flatten.1 hx
        obtain ⟨y, h3, h4⟩ := mapM_from hm l' h1
        refine ih ?_ h4 x h2
        cases h with
        | hole h => unfold Hole at h; rw [ha] at h; simp at h; obtain ⟨_, rfl⟩ := h; simp at h3
        | leaf h => exact absurd ha (hQ _ h _ _)
        | row h h' => rw [ha] at h; simp at h; obtain ⟨_, rfl⟩ := h; exact h' y h3
    · simp at hl

theorem arrayOf_rowPart {L : Heap} {Q : Addr → Prop} (hQ : ∀ y, Q y → ∀ cl items, L[y]? ≠ some ⟨cl, .seq items⟩) {content : List Addr} {single : Option Addr} {sh l}
    (hc : ∀ x ∈ content, RowPart L Q x) (hs : ∀ x, single = some x → RowPart L Q x) (h : arrayOf L content single = some (sh, l)) : ∀ x ∈ l, RowPart L Q x := by
  unfold arrayOf at h
  split at h
  · next a =>
    split at h
    · simp at h
    · next sh' hsh =>
      cases hf : flattenTo L sh' a with
      | none => rw [hf] at h; simp at h
      | some l' =>
        rw [hf] at h; simp at h; obtain ⟨_, rfl⟩ := h
        exact flattenTo_rowPart hQ (hs a rfl) hf
  · split at h
    · simp at h
    · simp at h
    · next n sh' hsh =>
      cases hm : content.mapM (flattenTo L sh') with
      | none => rw [hm] at h; simp at h
      | some ll =>
        rw [hm] at h; simp at h; obtain ⟨_, rfl⟩ := h
        intro x hx
        obtain ⟨l', h1, h2⟩ := List.mem_flatten.1 hx
        obtain ⟨y, h3, h4⟩ := mapM_from hm l' h1
        exact flattenTo_rowPart hQ (hc y h3) h4 x h2

theorem stringsOf_part {L : Heap} {w : Nat} {ss : List PyStr} (hw : ∀ t ∈ ss, widthOk w t = true) : ∀ {l : List Addr} {ts},
    (∀ x ∈ l, RowPart L (fun y => ∃ t ∈ ss, L[y]? = some ⟨.str, .str t⟩) x) → stringsOf L w l = .ok ts → ∀ t ∈ ts, t ∈ ss := by
  intro l
  induction l with
  | nil => intro ts _ h t ht; simp [stringsOf] at h; subst h; simp at ht
  | cons a l ih =>
    intro ts hl h t ht
    simp only [stringsOf] at h
    split at h
    · next cl u ha =>
      cases hr : stringsOf L w l with
      | error e => rw [hr] at h; simp [Except.map] at h
      | ok ts' =>
        rw [hr] at h; simp [Except.map] at h; subst h
        rcases List.mem_cons.1 ht with rfl | ht
        · cases hl a (by simp) with
          | hole h => unfold Hole at h; rw [ha] at h; simp at h
          | leaf h =>
            obtain ⟨v, h1, h2⟩ := h
            rw [ha] at h2; simp at h2; obtain ⟨_, rfl⟩ := h2
            rw [fixStr_of_width (hw _ h1)]; exact h1
          | row h => rw [ha] at h; simp at h
        · exact ih (fun x hx => hl x (by simp [hx])) hr t ht
    · simp at h
    · simp at h

/-- an array of strings from rows of strings -/
theorem part_strs (hh : PHyp P base K W c) (h : PLoad P K W c R s) {a : Addr} {o : Obj} (ho : K[a]? = some o) {w : Nat} {sh : List Nat} {ss : List PyStr} (hv : o.val = .sarr w sh ss)
    {attrs : Attrs} (hat : Assoc.get? attrs "np_dtype" = some (.udt w)) {content : List Addr} {single : Option Addr}
    (hc : ∀ x ∈ content, RowPart s.heap (fun y => ∃ t ∈ ss, s.heap[y]? = some ⟨.str, .str t⟩) x)
    (hs : ∀ x, single = some x → RowPart s.heap (fun y => ∃ t ∈ ss, s.heap[y]? = some ⟨.str, .str t⟩) x) :
    Yields (contConvert c (.ndarray o.cls attrs content single)) s (Gets P K W c R s a) := by
  have hok := hh.ok ho
  obtain ⟨cl, val⟩ := o
  simp only at hv; subst hv
  cases cl <;> simp [ObjOk, NativeOk, UserOk, sarrOk] at hok
  simp only [contConvert, arrConvert]
  refine .bind (Q' := fun st s' => st = s ∧ s' = s) (.get ⟨rfl, rfl⟩) ?_
  rintro st s' ⟨rfl, rfl⟩
  simp only [hat]
  split
  · next sh' l hl =>
    refine .bind (Q' := fun ts s2 => s2 = s' ∧ stringsOf s'.heap w l = .ok ts) (.ofExcept fun _ hq => ⟨rfl, hq⟩) ?_
    rintro ts s2 ⟨rfl, hts⟩
    split
    · refine h.alloc ho rfl (.sarr (stringsOf_part hok.2 (arrayOf_rowPart ?_ hc hs hl) hts))
      rintro y ⟨t, _, h1⟩ cl items h2
      rw [h1] at h2; simp at h2
    · exact .throw
  · exact .throw

/-- an array of objects from rows of objects -/
theorem part_objs (hh : PHyp P base K W c) (h : PLoad P K W c R s) {a : Addr} {o : Obj} (ho : K[a]? = some o) {sh : List Nat} {as : List Addr} (hv : o.val = .oarr sh as)
    {attrs : Attrs} (hat : Assoc.get? attrs "np_dtype" = some .odt) {content : List Addr} {single : Option Addr}
    (hc : ∀ x ∈ content, RowPart s.heap (fun y => ∃ b ∈ as, R y b ∨ ∃ d, NumOf K s.heap d y b) x)
    (hs : ∀ x, single = some x → RowPart s.heap (fun y => ∃ b ∈ as, R y b ∨ ∃ d, NumOf K s.heap d y b) x) :
    Yields (contConvert c (.ndarray o.cls attrs content single)) s (Gets P K W c R s a) := by
  have hok := hh.ok ho
  have hoa := hh.good.oarrs a o _ _ ho hv
  obtain ⟨cl, val⟩ := o
  simp only at hv; subst hv
  cases cl <;> simp [ObjOk, NativeOk, UserOk] at hok
  simp only [contConvert, arrConvert]
  refine .bind (Q' := fun st s' => st = s ∧ s' = s) (.get ⟨rfl, rfl⟩) ?_
  rintro st s' ⟨rfl, rfl⟩
  simp only [hat]
  split
  · next sh' l hl =>
    rw [if_pos trivial]
    refine h.alloc ho rfl (.oarr (arrayOf_rowPart ?_ hc hs hl))
    rintro y ⟨b, h1, h2⟩ cl items h3
    obtain ⟨q, e1, e2⟩ := hoa.1.1 b h1
    rcases h2 with h2 | ⟨d, q', o', f1, f2, v, w, f3, f4, _⟩
    · obtain ⟨q', o', f1, f2, f3, f4⟩ := h.part _ _ h2
      rw [e1] at f1; simp at f1; subst f1
      rw [h3] at f2; simp at f2; subst f2
      obtain ⟨qc, qv⟩ := q
      simp only at f4 e2
      cases f4 with
      | atom h => simp [Val.isAtom] at h
      | seq h => simp [Val.noDims] at e2
    · rw [h3] at f2; simp at f2; subst f2
      simp at f4
  · exact .throw

/-- the items of an array are appended -/
theorem arrCont_appends {cl : Cls} {attrs : Attrs} {n : Nat} {T : Nat → Addr → Prop} {i : Nat} (hi : i < n) {m : NodeId} {r : Rec} (hW : W m r) (hT : T i r.addr)
    (hat : r.attrs = [("item_index", .int i)]) : PAppends P K W c (ListSt (fun l => .ndarray cl attrs l none) n T) (dataName i, m) := by
  refine ⟨r, hW, ?_⟩
  rintro cont R s x nd cont' s' ⟨l, rfl, h1, h2⟩ _ hx hbt hidx ha
  simp only [contAppend, arrAppend, hbt] at ha
  rw [if_neg (by simp [dataName_ne])] at ha
  obtain ⟨r', s1, e1, e2⟩ := M.bind_ok_iff.1 ha
  cases hl : listAppend l (dataName i) x nd.attrs with
  | error e => rw [hl] at e1; simp [M.ofExcept, Except.map] at e1
  | ok l2 =>
    rw [hl] at e1; simp [M.ofExcept, Except.map] at e1; obtain ⟨rfl, rfl⟩ := e1
    rw [M.pure_apply] at e2; simp at e2; obtain ⟨rfl, rfl⟩ := e2
    obtain ⟨q1, q2⟩ := ListSt.step h1 h2 hi hx hT (fun v hv => by
      have := hidx _ v (.inl rfl) hv
      rw [hat] at this; simpa using this) hl
    exact ⟨_, rfl, q1, q2⟩

/-- an array that was stored row by row -/
theorem part_rows (hh : PHyp P base K W c) (h : PLoad P K W c R s) {a : Addr} {o : Obj} (ho : K[a]? = some o) {n : Nat} {sh : List Nat} {lfs : List Leaf} {dt : AttrVal}
    (hr : RowsOf o n sh lfs dt) {fuel : Nat} (ih : NodeLoads P K W c fuel) {nd : Node} {ls : List (PyStr × NodeId)} (hb : nd.body = .group ls)
    (hk : LinksOk base K W (nestSubs sh 0 n lfs) nd.body) {attrs : Attrs} (hat : Assoc.get? attrs "np_dtype" = some dt) :
    Yields (do
      let sub ← M.foldEach (fun sub (p : PyStr × NodeId) => loadNode c fuel sub p.1 p.2) (.ndarray o.cls attrs (List.replicate n nobody) none) (c.order ls)
      contConvert c sub : LM Addr) s (Gets P K W c R s a) := by
  refine cont_part (I := ListSt (fun l => .ndarray o.cls attrs l none) n fun _ p => ∃ l, (∀ x ∈ l, x ∈ lfs) ∧ Nested base K .list sh l p) hh ih ListSt.mono ?_ h (ListSt.init h.zero) ?_
  · rintro ⟨nm, m⟩ hp
    obtain ⟨sb, x, subs', h1, h2, _, h3, h4⟩ := hk ls hb _ hp
    obtain ⟨i, h5, rfl⟩ := nestSubs_mem h1
    simp only at h2 h4; subst h2
    simp only [SubAt] at h3
    rw [Nat.zero_add] at h4 ⊢
    exact arrCont_appends h5 h4 ⟨_, fun x hx => List.mem_of_mem_drop (List.mem_of_mem_take hx), h3⟩ rfl
  · rintro cont' R' s' h' ⟨l, rfl, e1, e2⟩
    cases hr with
    | str hv =>
      refine part_strs hh h' ho hv hat (fun x hx => ?_) (by simp)
      obtain ⟨i, hi⟩ := List.getElem?_of_mem hx
      rcases e2 i x hi with e3 | ⟨p, ⟨l, e3, e4⟩, e5⟩
      · exact .hole e3
      · refine nested_rowPart h' (fun lf hlf q hq => ?_) e4 e5
        obtain ⟨t, ht, rfl⟩ := List.mem_map.1 (e3 lf hlf)
        refine ⟨fun y hy => ⟨t, ht, h'.atom_eq hy hq.2 rfl (by simp)⟩, ?_⟩
        rintro d y ⟨q, q', k1, _, v, w, k2, _⟩
        rw [hq.2] at k1; simp at k1; subst k1
        simp [exactNum] at k2
    | obj hv =>
      refine part_objs hh h' ho hv hat (fun x hx => ?_) (by simp)
      obtain ⟨i, hi⟩ := List.getElem?_of_mem hx
      rcases e2 i x hi with e3 | ⟨p, ⟨l, e3, e4⟩, e5⟩
      · exact .hole e3
      · refine nested_rowPart h' (fun lf hlf q hq => ?_) e4 e5
        obtain ⟨b, hb', rfl⟩ := List.mem_map.1 (e3 lf hlf)
        have : q = b := hq
        subst this
        exact ⟨fun y hy => ⟨q, hb', .inl hy⟩, fun d y hy => ⟨q, hb', .inr ⟨d, hy⟩⟩⟩

/-- a one-dimensional array of objects -/
theorem part_oseq (hh : PHyp P base K W c) (h : PLoad P K W c R s) {a : Addr} {o : Obj} (ho : K[a]? = some o) {sh : List Nat} {items : List Addr} (hv : o.val = .oarr sh items)
    {fuel : Nat} (ih : NodeLoads P K W c fuel) {nd : Node} {ls : List (PyStr × NodeId)} (hb : nd.body = .group ls)
    (hk : LinksOk base K W (listSubs 0 items) nd.body) {attrs : Attrs} (hat : Assoc.get? attrs "np_dtype" = some .odt) :
    Yields (do
      let sub ← M.foldEach (fun sub (p : PyStr × NodeId) => loadNode c fuel sub p.1 p.2) (.ndarray o.cls attrs (List.replicate items.length nobody) none) (c.order ls)
      contConvert c sub : LM Addr) s (Gets P K W c R s a) := by
  refine cont_part (I := ListSt (fun l => .ndarray o.cls attrs l none) items.length fun i a => items[i]? = some a) hh ih ListSt.mono ?_ h (ListSt.init h.zero) ?_
  · rintro ⟨nm, m⟩ hp
    obtain ⟨sb, x, subs', h1, h2, _, h3, h4⟩ := hk ls hb _ hp
    obtain ⟨i, b, h5, rfl⟩ := listSubs_at h1
    simp only at h2 h4; subst h2
    simp only [SubAt] at h3; subst h3
    exact arrCont_appends (lt_of_getElem? h5) h4 h5 rfl
  · rintro cont' R' s' h' ⟨l, rfl, e1, e2⟩
    refine part_objs hh h' ho hv hat (fun x hx => ?_) (by simp)
    obtain ⟨i, hi⟩ := List.getElem?_of_mem hx
    rcases e2 i x hi with e3 | ⟨p, e3, e4⟩
    · exact .hole e3
    · exact .leaf ⟨p, List.mem_of_getElem? e3, .inl e4⟩

/-- an array of one object without dimensions -/
theorem part_oone (hh : PHyp P base K W c) (h : PLoad P K W c R s) {a : Addr} {o : Obj} (ho : K[a]? = some o) {sh : List Nat} {b : Addr} (hv : o.val = .oarr sh [b])
    {fuel : Nat} (ih : NodeLoads P K W c fuel) {nd : Node} {ls : List (PyStr × NodeId)} (hb : nd.body = .group ls)
    (hk : LinksOk base K W [.ok ⟨ps "data", .addr b, []⟩] nd.body) {attrs : Attrs} (hat : Assoc.get? attrs "np_dtype" = some .odt) :
    Yields (do
      let sub ← M.foldEach (fun sub (p : PyStr × NodeId) => loadNode c fuel sub p.1 p.2) (.ndarray o.cls attrs [] none) (c.order ls)
      contConvert c sub : LM Addr) s (Gets P K W c R s a) := by
  refine cont_part (I := fun cont R _ => ∃ q, cont = .ndarray o.cls attrs [] q ∧ ∀ x, q = some x → R x b) hh ih ?_ ?_ h ⟨none, rfl, by simp⟩ ?_
  · rintro cont R R' L L' hR _ ⟨q, h1, h2⟩
    exact ⟨q, h1, fun x hx => hR _ _ (h2 x hx)⟩
  · rintro ⟨nm, m⟩ hp
    obtain ⟨sb, x, subs', h1, h2, _, h3, h4⟩ := hk ls hb _ hp
    simp at h1; subst h1
    simp only at h2 h4; subst h2
    simp only [SubAt] at h3; subst h3
    refine ⟨_, h4, ?_⟩
    rintro cont R s y nd cont' s' ⟨q, rfl, h6⟩ _ hy _ _ ha
    simp only [contAppend, arrAppend] at ha
    rw [if_pos (by simp)] at ha
    cases ha
    exact ⟨_, rfl, fun z hz => by simp at hz; subst hz; exact hy⟩
  · rintro cont' R' s' h' ⟨q, rfl, e2⟩
    exact part_objs hh h' ho hv hat (by simp) fun x hx => .leaf ⟨b, by simp, .inl (e2 x hx)⟩

/-! ### masked arrays and sparse matrices -/

theorem part_masked (hh : PHyp P base K W c) (h : PLoad P K W c R s) {a : Addr} {o : Obj} (ho : K[a]? = some o)
    {d : DT} {shape : List Nat} {data : List NpVal} {mask : Option (List Bool)} (hv : o.val = .masked d shape data mask)
    {fuel : Nat} (ih : NodeLoads P K W c fuel) {nd : Node} {ls : List (PyStr × NodeId)} (hb : nd.body = .group ls)
    (hk : LinksOk base K W [.ok ⟨ps "data", .nest .list [] [.obj ⟨.ndarray, .arr d shape data⟩], []⟩,
        .ok ⟨ps "mask", .nest .list [] [.obj (maskObj shape mask)], []⟩] nd.body) {attrs : Attrs} (hat : Assoc.get? attrs "np_dtype" = some (.dt d)) :
    Yields (do
      let sub ← M.foldEach (fun sub (p : PyStr × NodeId) => loadNode c fuel sub p.1 p.2) (.masked o.cls attrs []) (c.order ls)
      contConvert c sub : LM Addr) s (Gets P K W c R s a) := by
  have hok := hh.ok ho
  refine cont_part (I := fun cont _ L => ∃ l, cont = .masked o.cls attrs l ∧
      (∀ x, Assoc.get? l (ps "data") = some x → L[x]? = some ⟨.ndarray, .arr d shape data⟩) ∧ ∀ x, Assoc.get? l (ps "mask") = some x → L[x]? = some (maskObj shape mask))
    hh ih ?_ ?_ h ⟨[], rfl, by simp [Assoc.get?], by simp [Assoc.get?]⟩ ?_
  · rintro cont R R' L L' _ hp ⟨l, h1, h2, h3⟩
    exact ⟨l, h1, fun x hx => getElem?_prefix hp (h2 x hx), fun x hx => getElem?_prefix hp (h3 x hx)⟩
  · rintro ⟨nm, m⟩ hp
    obtain ⟨sb, x, subs', h1, h2, _, h3, h4⟩ := hk ls hb _ hp
    refine ⟨_, h4, ?_⟩
    rintro cont R s y nd cont' s' ⟨l, rfl, h6, h7⟩ hP hy _ _ ha
    cases ha
    simp only at h2 h4 hy
    simp only [List.mem_cons, Except.ok.injEq, List.not_mem_nil, or_false] at h1
    rcases h1 with rfl | rfl
    · obtain ⟨lf, e1, e2⟩ := h3
      simp at e1; subst e1
      simp only at h2; subst h2
      refine ⟨_, rfl, fun z hz => ?_, fun z hz => ?_⟩
      · rw [Assoc.get?_put_self] at hz; simp at hz; subst hz
        exact hP.atom_eq hy e2.2 rfl (by simp)
      · rw [Assoc.get?_put_ne _ _ (show ps "data" ≠ ps "mask" by decide)] at hz
        exact h7 z hz
    · obtain ⟨lf, e1, e2⟩ := h3
      simp at e1; subst e1
      simp only at h2; subst h2
      refine ⟨_, rfl, fun z hz => ?_, fun z hz => ?_⟩
      · rw [Assoc.get?_put_ne _ _ (show ps "mask" ≠ ps "data" by decide)] at hz
        exact h6 z hz
      · rw [Assoc.get?_put_self] at hz; simp at hz; subst hz
        exact hP.atom_eq hy e2.2 (by cases mask <;> rfl) (by cases mask <;> simp [maskObj])
  · rintro cont' R' s' h' ⟨l, rfl, e2, e3⟩
    obtain ⟨cl, val⟩ := o
    simp only at hv; subst hv
    cases cl <;> simp [ObjOk, NativeOk, UserOk] at hok
    have hm : maskOf shape data.length (maskObj shape mask) = some mask := by
      cases mask with
      | none => rfl
      | some l =>
        simp only [maskObj, maskOf, if_true]
        rw [mapM_npBit]; rfl
    simp only [contConvert, maskedConvert]
    refine .bind (Q' := fun st s2 => st = s' ∧ s2 = s') (.get ⟨rfl, rfl⟩) ?_
    rintro st s2 ⟨rfl, rfl⟩
    rw [hat]
    cases hx : Assoc.get? l (ps "data") with
    | none => cases Assoc.get? l (ps "mask") <;> exact .throw
    | some x =>
      cases hy : Assoc.get? l (ps "mask") with
      | none => exact .throw
      | some y =>
        simp only [e2 x hx, e3 y hy, hm, and_self, if_true]
        exact h'.alloc ho rfl (.atom rfl)

/-- a number of a shape -/
theorem natAt_part (h : PLoad P K W c R s) {y r : Addr} {n m : Nat} (hr : K[r]? = some ⟨.int, .int n⟩)
    (hy : (Hole s.heap y ∨ R y r) ∨ ∃ d, NumOf K s.heap d y r) (hm : natAt s.heap y = some m) : m = n := by
  unfold natAt at hm
  rcases hy with (hy | hy) | ⟨d, o, o', h1, h2, v, w, h3, h4, h5, _⟩
  · rw [hy] at hm; simp at hm
  · rw [h.atom_eq hy hr rfl (by simp)] at hm
    simp at hm; exact hm.symm
  · rw [hr] at h1; simp at h1; subst h1
    simp [exactNum] at h3; subst h3
    rw [h2, h4] at hm
    cases d
    · simp [castNum] at h5
    · simp only [castNum] at h5
      split at h5
      · simp only [Option.some.injEq] at h5; subst h5
        simp at hm; exact hm.symm
      · simp at h5
    · simp only [castNum, Option.map_eq_some_iff] at h5
      obtain ⟨f, _, rfl⟩ := h5
      simp at hm
    · simp only [castNum, Option.map_eq_some_iff] at h5
      obtain ⟨f, _, rfl⟩ := h5
      simp at hm

theorem All2.either {H L : Heap} {R : Addr → Addr → Prop} {xs as : List Addr} (h : ItemsPart H L R xs as) :
    All2 (fun x c => (Hole L x ∨ R x c) ∨ ∃ d, NumOf H L d x c) xs as := by
  rcases h with h | ⟨d, h⟩
  · exact h.mono fun _ _ h => .inl h
  · exact h.mono fun _ _ h => .inr ⟨d, h⟩

/-- the shape of a sparse matrix -/
theorem shapeOf_part (h : PLoad P K W c R s) {x p : Addr} (hR : R x p) {shape shape' : List Nat} {n : Nat}
    (hn : Nested base K .tuple [n] (shape.map fun (n : Nat) => Leaf.obj ⟨.int, .int n⟩) p) (hs : shapeOf s.heap x = some shape') : shape' = shape := by
  obtain ⟨_, rows, lss, h1, hlen, h2, h3⟩ := hn
  clear hlen
  obtain ⟨o, ⟨cl', v'⟩, e1, e2, e3, e4⟩ := h.part x p hR
  rw [h1] at e1; simp at e1; subst e1
  simp only at e3 e4; subst e3
  generalize hrs : Val.seq rows = w at e4
  cases e4 with
  | atom h =>
    subst hrs; simp [Val.isAtom] at h
  | @seq ys rows' hi =>
    simp at hrs; subst hrs
    have hi0 := hi
    replace hi := All2.either hi
    unfold shapeOf at hs
    rw [e2] at hs
    simp only at hs
    clear e2 h1 hR hi0
    induction hi generalizing shape shape' lss with
    | nil =>
      cases h3
      simp at hs; subst hs
      cases shape with
      | nil => rfl
      | cons => simp at h2
    | @cons y r ys rows hy _ ih =>
      cases h3 with
      | @cons _ l _ lss hl h3 =>
        obtain ⟨lf, rfl, hlf⟩ := hl
        cases shape with
        | nil => simp at h2
        | cons k shape =>
          simp at h2
          obtain ⟨rfl, h2⟩ := h2
          rw [List.mapM_cons] at hs
          cases hk : natAt s.heap y with
          | none => rw [hk] at hs; simp at hs
          | some m =>
            cases hl : ys.mapM (natAt s.heap) with
            | none => rw [hk, hl] at hs; simp at hs
            | some shape2 =>
              rw [hk, hl] at hs; simp at hs; subst hs
              rw [natAt_part h hlf.2 hy hk, ih _ h2 h3 hl]
  | _ => simp at hrs

theorem part_sparse (hh : PHyp P base K W c) (h : PLoad P K W c R s) {a : Addr} {o : Obj} (ho : K[a]? = some o)
    {d i p : Addr} {shape : List Nat} (hv : o.val = .sparse d i p shape)
    {fuel : Nat} (ih : NodeLoads P K W c fuel) {nd : Node} {ls : List (PyStr × NodeId)} (hb : nd.body = .group ls)
    (hk : LinksOk base K W [.ok ⟨ps "data", .addr d, []⟩, .ok ⟨ps "indices", .addr i, []⟩, .ok ⟨ps "indptr", .addr p, []⟩,
        .ok ⟨ps "shape", .nest .tuple [shape.length] (shape.map fun (n : Nat) => .obj ⟨.int, .int n⟩), []⟩] nd.body) :
    Yields (do
      let sub ← M.foldEach (fun sub (p : PyStr × NodeId) => loadNode c fuel sub p.1 p.2) (.sparse o.cls none none none none) (c.order ls)
      contConvert c sub : LM Addr) s (Gets P K W c R s a) := by
  refine cont_part (I := fun cont R _ => ∃ d' i' p' sh', cont = .sparse o.cls d' i' p' sh' ∧ (∀ x, d' = some x → R x d) ∧ (∀ x, i' = some x → R x i) ∧
      (∀ x, p' = some x → R x p) ∧ ∀ x, sh' = some x → ∃ q, Nested base K .tuple [shape.length] (shape.map fun (n : Nat) => .obj ⟨.int, .int n⟩) q ∧ R x q)
    hh ih ?_ ?_ h ⟨none, none, none, none, rfl, by simp, by simp, by simp, by simp⟩ ?_
  · rintro cont R R' L L' hR _ ⟨d', i', p', sh', h1, h2, h3, h4, h5⟩
    exact ⟨d', i', p', sh', h1, fun x hx => hR _ _ (h2 x hx), fun x hx => hR _ _ (h3 x hx), fun x hx => hR _ _ (h4 x hx),
      fun x hx => by obtain ⟨q, h6, h7⟩ := h5 x hx; exact ⟨q, h6, hR _ _ h7⟩⟩
  · rintro ⟨nm, m⟩ hp
    obtain ⟨sb, x, subs', h1, h2, _, h3, h4⟩ := hk ls hb _ hp
    refine ⟨_, h4, ?_⟩
    rintro cont R s y nd cont' s' ⟨d', i', p', sh', rfl, k2, k3, k4, k5⟩ _ hy _ _ ha
    simp only at h2 h4 hy
    simp only [List.mem_cons, Except.ok.injEq, List.not_mem_nil, or_false] at h1
    rcases h1 with rfl | rfl | rfl | rfl <;> simp only at h2 <;> subst h2 <;> cases ha
    · simp only [SubAt] at h3; subst h3
      exact ⟨_, _, _, _, rfl, fun z hz => by simp at hz; subst hz; exact hy, k3, k4, k5⟩
    · simp only [SubAt] at h3; subst h3
      exact ⟨_, _, _, _, rfl, k2, fun z hz => by simp at hz; subst hz; exact hy, k4, k5⟩
    · simp only [SubAt] at h3; subst h3
      exact ⟨_, _, _, _, rfl, k2, k3, fun z hz => by simp at hz; subst hz; exact hy, k5⟩
    · exact ⟨_, _, _, _, rfl, k2, k3, k4, fun z hz => by simp at hz; subst hz; exact ⟨x, h3, hy⟩⟩
  · rintro cont' R' s' h' ⟨d', i', p', sh', rfl, k2, k3, k4, k5⟩
    simp only [contConvert, sparseConvert]
    refine .bind (Q' := fun st s2 => st = s' ∧ s2 = s') (.get ⟨rfl, rfl⟩) ?_
    rintro st s2 ⟨rfl, rfl⟩
    split
    · exact .throw
    · split
      · next x1 x2 x3 x4 sh2 hsh =>
        split
        · obtain ⟨q, q1, q2⟩ := k5 _ rfl
          have := shapeOf_part h' q2 q1 hsh
          subst this
          exact h'.alloc ho rfl (by rw [hv]; exact .sparse (k2 _ rfl) (k3 _ rfl) (k4 _ rfl))
        · exact .throw
      · exact .throw
    · exact .throw

/-! ### a node -/

theorem listSubs_ok {i : Nat} {items : List Addr} : ∀ x ∈ listSubs i items, ∃ sb, x = Except.ok sb := by
  induction items generalizing i with
  | nil => simp [listSubs]
  | cons a items ih =>
    intro x hx
    simp only [listSubs, List.mem_cons] at hx
    rcases hx with rfl | hx
    · exact ⟨_, rfl⟩
    · exact ih x hx

theorem nestSubs_ok {sh : List Nat} {k : Nat} : ∀ {i : Nat} {ls : List Leaf}, ∀ x ∈ nestSubs sh i k ls, ∃ sb, x = Except.ok sb := by
  induction k with
  | zero => simp [nestSubs]
  | succ k ih =>
    intro i ls x hx
    simp only [nestSubs, List.mem_cons] at hx
    rcases hx with rfl | hx
    · exact ⟨_, rfl⟩
    · exact ih x hx

/-- only the generator of the entries of a dict raises -/
theorem Head.dict_or {env : Env} {H : Heap} {fn o at' od subs} (h : Head env H fn o at' od subs) :
    (fn = .dictlike ∧ ∃ es, o.val = .dict es ∧ od = Option.none ∧ subs = dictSubs env H 0 es) ∨ ∀ x ∈ subs, ∃ sb, x = Except.ok sb := by
  cases h with
  | dict h => exact .inl ⟨rfl, _, h, rfl, rfl⟩
  | seqItems | setItems => exact .inr listSubs_ok
  | rows => exact .inr nestSubs_ok
  | oseq _ _ h =>
    cases h with
    | items => exact .inr listSubs_ok
    | _ => exact .inr (by simp)
  | _ => exact .inr (by simp)

/-- the object a described node stands for -/
theorem body_part (hh : PHyp P base K W c) (h : PLoad P K W c R s) {a : Addr} {o : Obj} (ho : K[a]? = some o) {fuel : Nat} (ih : NodeLoads P K W c fuel)
    {nd : Node} {od : Option Data} {subs : Subs} {K0 : Heap} (hK : K0 <+: K) (hd : Head c.env K0 (expected c.env o.cls).2.fn o nd.attrs od subs)
    (hb : BodyIs od nd.body) (hl : LinksOk base K W subs nd.body) (hready : BaseReady s.reg (expected c.env o.cls).2.base) {cl : Cls} :
    Yields (loadBody c (loadNode c fuel) nd ⟨cl, (expected c.env o.cls).2.base, (expected c.env o.cls).2.base, nd.isGroup⟩ (expected c.env o.cls).1) s
      (Gets P K W c R s a) := by
  have hok := hh.ok ho
  have hcont := expected_cont c.env hok
  -- a dataset
  have leaf : ∀ {d : Data} {f : LoadFn}, nd.body = .dset d → fnLoad (expected c.env o.cls).2.fn = some f →
      Yields (loadData c f d nd.attrs (expected c.env o.cls).2.base (expected c.env o.cls).1) s (Gets P K W c R s a) →
      Yields (loadBody c (loadNode c fuel) nd ⟨cl, (expected c.env o.cls).2.base, (expected c.env o.cls).2.base, nd.isGroup⟩ (expected c.env o.cls).1) s
        (Gets P K W c R s a) := by
    intro d f hbd hf h1 x s' hx
    obtain ⟨p, k, hs⟩ := expected_load c.env o.cls hf
    unfold loadBody at hx
    rw [M.bind_of_ok (M.get_apply s)] at hx
    simp only [Node.isGroup, hbd, hready.loadFn h.reg hh.mgr hs] at hx
    exact h1 x s' hx
  -- a group
  have grp : ∀ {ls : List (PyStr × NodeId)} {k : ContK} {p f} {cont : Cont}, nd.body = .group ls → stdBase (expected c.env o.cls).2.base = some (p, f, some k) →
      mkCont k nd.attrs (expected c.env o.cls).2.base (expected c.env o.cls).1 s = (.ok cont, s) → (∀ l, cont ≠ .expand l) →
      Yields (do
        let sub ← M.foldEach (fun sub (p : PyStr × NodeId) => loadNode c fuel sub p.1 p.2) cont (c.order ls)
        contConvert c sub : LM Addr) s (Gets P K W c R s a) →
      Yields (loadBody c (loadNode c fuel) nd ⟨cl, (expected c.env o.cls).2.base, (expected c.env o.cls).2.base, nd.isGroup⟩ (expected c.env o.cls).1) s
        (Gets P K W c R s a) := by
    intro ls k p f cont hbd hs hm hne h1 x s' hx
    unfold loadBody at hx
    rw [M.bind_of_ok (M.get_apply s)] at hx
    simp only [Node.isGroup, hbd, hready.container h.reg hh.mgr hs, if_true, Option.getD_some] at hx
    rw [M.bind_of_ok hm, M.bind_of_ok (a := c.order ls) (s1 := s)] at hx
    · exact h1 x s' hx
    · unfold contFilter
      rw [hbd]
      cases cont <;> first | rfl | exact absurd rfl (hne _)
  have hfst : (expected c.env o.cls).2.fn ≠ .pickled → (expected c.env o.cls).1 = o.cls := expected_fst c.env
  generalize hfn : (expected c.env o.cls).2.fn = fn at hd
  rcases hd.dict_or with ⟨rfl, es, hv, rfl, rfl⟩ | hs
  · obtain ⟨ls, hb1⟩ := hb
    obtain ⟨p, f, hs⟩ := hcont.2.2.1 ⟨_, hv⟩
    refine grp hb1 hs rfl (by simp) ?_
    rw [hfst (by rw [hfn]; simp)]
    exact part_dict hh h ho hv ih hb1 hK hl
  have hd := hd.mono hK hs
  cases hd with
  | intBig h1 h2 h3 =>
    refine leaf (f := .scalar) hb (by rw [hfn]; rfl) ?_
    rw [hfst (by rw [hfn]; simp)]
    exact part_scalar h ho hok (.inl ⟨_, h1, .inr ⟨rfl, h2, h3⟩⟩)
  | int h1 h2 =>
    refine leaf (f := .scalar) hb (by rw [hfn]; rfl) ?_
    rw [hfst (by rw [hfn]; simp)]
    exact part_scalar h ho hok (.inl ⟨_, h1, .inl rfl⟩)
  | bool h1 =>
    refine leaf (f := .scalar) hb (by rw [hfn]; rfl) ?_
    rw [hfst (by rw [hfn]; simp)]
    exact part_scalar h ho hok (.inr (.inl ⟨_, h1, rfl⟩))
  | float h1 =>
    refine leaf (f := .scalar) hb (by rw [hfn]; rfl) ?_
    rw [hfst (by rw [hfn]; simp)]
    exact part_scalar h ho hok (.inr (.inr (.inl ⟨_, h1, rfl⟩)))
  | cplx h1 =>
    refine leaf (f := .scalar) hb (by rw [hfn]; rfl) ?_
    rw [hfst (by rw [hfn]; simp)]
    exact part_scalar h ho hok (.inr (.inr (.inr ⟨_, _, h1, rfl⟩)))
  | none =>
    refine leaf (f := .none) hb (by rw [hfn]; rfl) ?_
    have := none_obj hok hfn
    subst this
    exact h.atom ho rfl
  | str h1 h2 h3 =>
    refine leaf (f := .list) hb (by rw [hfn]; rfl) ?_
    rw [hfst (by rw [hfn]; simp)]
    exact part_text h ho hok h3 (.inl ⟨_, h1, h2⟩)
  | bytes h1 h2 =>
    refine leaf (f := .list) hb (by rw [hfn]; rfl) ?_
    rw [hfst (by rw [hfn]; simp)]
    exact part_text h ho hok h2 (.inr h1)
  | seqNil h1 =>
    refine leaf (f := .list) hb (by rw [hfn]; rfl) ?_
    rw [hfst (by rw [hfn]; simp)]
    exact part_seqNil hh h ho h1 (t := "int") (attrs := nd.attrs)
  | setNil h1 =>
    refine leaf (f := .list) hb (by rw [hfn]; rfl) ?_
    rw [hfst (by rw [hfn]; simp)]
    exact part_vec hh h ho (.inr h1) (d := .int64) (attrs := nd.attrs) .nil
  | @seqVec _ _ _ d _ h1 h2 h3 h4 =>
    refine leaf (f := .list) hb (by rw [hfn]; rfl) ?_
    rw [hfst (by rw [hfn]; simp)]
    exact part_vec hh h ho (.inl h1) (d := d) (attrs := nd.attrs) (cast_items h3)
  | @setVec _ _ _ d _ h1 h2 h3 h4 =>
    refine leaf (f := .list) hb (by rw [hfn]; rfl) ?_
    rw [hfst (by rw [hfn]; simp)]
    exact part_vec hh h ho (.inr h1) (d := d) (attrs := nd.attrs) (cast_items h3)
  | seqItems h1 h2 hnn h3 =>
    obtain ⟨ls, hb1⟩ := hb
    obtain ⟨p, f, hs⟩ := hcont.1 ⟨_, h1⟩ hfn
    refine grp hb1 hs (by simp only [mkCont, h3]; rfl) (by simp) ?_
    rw [hfst (by rw [hfn]; simp)]
    simp only [Int.toNat_natCast]
    exact part_seqItems hh h ho h1 ih hb1 hl
  | setItems h1 h2 hnn =>
    obtain ⟨ls, hb1⟩ := hb
    obtain ⟨p, f, hs⟩ := hcont.2.1 ⟨_, h1⟩
    refine grp hb1 hs rfl (by simp) ?_
    rw [hfst (by rw [hfn]; simp)]
    exact part_setItems hh h ho h1 ih hb1 hl
  | dict h1 =>
    obtain ⟨ls, hb1⟩ := hb
    obtain ⟨p, f, hs⟩ := hcont.2.2.1 ⟨_, h1⟩
    refine grp hb1 hs rfl (by simp) ?_
    rw [hfst (by rw [hfn]; simp)]
    exact part_dict hh h ho h1 ih hb1 List.prefix_rfl hl
  | np h1 h2 =>
    exact leaf (f := .npScalar) hb (by rw [hfn]; rfl) (part_np h ho hok h1 h2)
  | arr h1 h2 =>
    refine leaf (f := .ndarray) hb (by rw [hfn]; rfl) ?_
    rw [hfst (by rw [hfn]; simp)]
    exact part_arr h ho hok h1 h2
  | sstr h1 h2 h3 =>
    exact leaf (f := .ndarray) hb (by rw [hfn]; rfl) (part_sstr h ho hok h1 h2 h3)
  | rowsNil h1 h2 => exact absurd rfl (h1.ne_zero hok)
  | rows h1 h2 h3 h4 h5 =>
    obtain ⟨ls, hb1⟩ := hb
    obtain ⟨p, f, hs⟩ := hcont.2.2.2.1 (by cases h1 with | str h => exact .inl ⟨_, _, _, h⟩ | obj h => exact .inr ⟨_, _, h⟩)
    refine grp hb1 hs (by simp only [mkCont, h5]; rfl) (by simp) ?_
    rw [hfst (by rw [hfn]; simp)]
    simp only [Int.toNat_natCast]
    exact part_rows hh h ho h1 ih hb1 hl h4
  | oseq h1 h2 h3 =>
    cases h1 with
    | zero h4 h5 h6 =>
      obtain ⟨q, e1, e2⟩ := (hh.good.oarrs a o _ _ ho h4).1.1 _ (List.mem_singleton.2 rfl)
      rw [h5] at e1; simp at e1; subst e1
      simp [Val.noDims] at e2
    | one h4 =>
      have hoa := hh.good.oarrs a o _ _ ho h4
      have hlen := oarr_len hok h4
      cases h3 with
      | nil h5 => rw [h5] at hlen; simp at hlen; exact absurd hlen.2.symm hlen.1
      | vec h5 h6 h7 =>
        exfalso
        obtain ⟨x, hx, hn⟩ := hoa.1.2 _ rfl 0 (by have := List.length_pos_iff.2 h5; omega)
        exact castItems_num h6 x (List.mem_of_mem_drop (List.mem_of_mem_take hx)) hn
      | items h5 h6 h7 =>
        obtain ⟨ls, hb1⟩ := hb
        obtain ⟨p, f, hs⟩ := hcont.2.2.2.1 (.inr ⟨_, _, h4⟩)
        refine grp hb1 hs (by simp only [mkCont, h7]; rfl) (by simp) ?_
        rw [hfst (by rw [hfn]; simp)]
        simp only [Int.toNat_natCast]
        exact part_oseq hh h ho h4 ih hb1 hl h2
  | oone h1 h2 h3 h4 h5 =>
    obtain ⟨ls, hb1⟩ := hb
    obtain ⟨p, f, hs⟩ := hcont.2.2.2.1 (.inr ⟨_, _, h1⟩)
    refine grp hb1 hs (by simp only [mkCont, h5]; rfl) (by simp) ?_
    rw [hfst (by rw [hfn]; simp)]
    exact part_oone hh h ho h1 ih hb1 hl h4
  | masked h1 h2 =>
    obtain ⟨ls, hb1⟩ := hb
    obtain ⟨p, f, hs⟩ := hcont.2.2.2.2.1 ⟨_, _, _, _, h1⟩
    refine grp hb1 hs rfl (by simp) ?_
    rw [hfst (by rw [hfn]; simp)]
    exact part_masked hh h ho h1 ih hb1 hl h2
  | sparse h1 h2 =>
    obtain ⟨ls, hb1⟩ := hb
    obtain ⟨p, f, hs⟩ := hcont.2.2.2.2.2 ⟨_, _, _, _, h1⟩
    refine grp hb1 hs rfl (by simp) ?_
    rw [hfst (by rw [hfn]; simp)]
    exact part_sparse hh h ho h1 ih hb1 hl
  | pickled h1 =>
    exact leaf (f := .pickled) hb (by rw [hfn]; rfl) (part_pickled h ho hok h1)

theorem no_ok {b : Bool} {e e' : PyErr} {s s' : LState} {x : Addr} (h : (if b = true then M.throw e else M.throw e' : LM Addr) s = (.ok x, s')) : False := by
  cases b <;> simp [M.throw] at h

/-- what was not written by pickle is not read by it, as far as the model tells -/
theorem pickled_only {env : Env} {d : Data} {attrs : Attrs} {s s' : LState} {x : Addr} (hd : ∀ cl st, d ≠ .pickleObj cl st)
    (h : loadPickled env d attrs s = (.ok x, s')) : False := by
  unfold loadPickled at h
  cases d with
  | pickleObj cl st => exact hd _ _ rfl
  | null t => simp [M.throw] at h
  | _ =>
    exact no_ok h

/-- a reference that was never written cannot be loaded -/
theorem null_part (hh : PHyp P base K W c) (h : PLoad P K W c R s) {nd : Node} (hbd : nd.body = .dset .nullRef) (hty : Assoc.get? nd.attrs "type" = none)
    {fuel : Nat} {q s'} : loadObj c (loadNode c fuel) nd s ≠ (.ok q, s') := by
  intro hx
  unfold loadObj at hx
  rw [M.bind_of_ok (a := ⟨.nodeRef, "!node-reference!", "!node-reference!", true⟩) (s1 := s)] at hx
  · dsimp only at hx
    obtain ⟨s1, e1, e2, e3, e4, e5⟩ := loader_part hh h (goodCls_nodeRef P c.env) (some "!node-reference!")
    rw [M.bind_of_ok e1] at hx
    obtain ⟨x, s2, f1, f2⟩ := M.bind_ok_iff.1 hx
    have hc : c.mgr.container s1.reg "!node-reference!" = some .expandRef := e5.container e2.reg hh.mgr (b := "!node-reference!") rfl
    unfold loadBody at f1
    rw [M.bind_of_ok (M.get_apply s1)] at f1
    simp only [hc, if_true, Option.getD_some] at f1
    rw [M.bind_of_ok (x := mkCont _ _ _ _) (a := Cont.expand []) (s1 := s1) rfl] at f1
    obtain ⟨items, s3, g1, g2⟩ := M.bind_ok_iff.1 f1
    simp [contFilter, hbd, M.throw] at g1
  · unfold resolveType
    rw [hty]
    simp only [hbd]
    rfl

/-- the object of a described node and whether it is remembered -/
theorem obj_part (hh : PHyp P base K W c) (h : PLoad P K W c R s) {n : NodeId} {r : Rec} {nd : Node} (hn : Kind c.env base K c.store W r nd)
    {fuel : Nat} (ih : NodeLoads P K W c fuel) : Yields (loadObj c (loadNode c fuel) nd) s fun q s' => Gets P K W c R s r.addr q.1 s' := by
  cases hn with
  | @ref t r' hbd hty hW hra =>
    intro q s' hx
    unfold loadObj at hx
    rw [M.bind_of_ok (a := ⟨.nodeRef, "!node-reference!", "!node-reference!", true⟩) (s1 := s)] at hx
    · dsimp only at hx
      obtain ⟨s1, e1, e2, e3, e4, e5⟩ := loader_part hh h (goodCls_nodeRef P c.env) (some "!node-reference!")
      rw [M.bind_of_ok e1] at hx
      obtain ⟨x, s2, f1, f2⟩ := M.bind_ok_iff.1 hx
      rw [M.pure_apply] at f2; simp at f2; obtain ⟨rfl, rfl⟩ := f2
      have hc : c.mgr.container s1.reg "!node-reference!" = some .expandRef := e5.container e2.reg hh.mgr (b := "!node-reference!") rfl
      unfold loadBody at f1
      rw [M.bind_of_ok (M.get_apply s1)] at f1
      simp only [hc, if_true, Option.getD_some] at f1
      rw [M.bind_of_ok (x := mkCont _ _ _ _) (a := Cont.expand []) (s1 := s1) rfl] at f1
      obtain ⟨items, s3, g1, g2⟩ := M.bind_ok_iff.1 f1
      simp only [contFilter, hbd] at g1
      cases ht : c.store[t]? with
      | none => rw [ht] at g1; simp [M.throw] at g1
      | some tn =>
        rw [ht] at g1
        simp only at g1
        rw [M.pure_apply] at g1; simp at g1; obtain ⟨rfl, rfl⟩ := g1
        have : Yields (do
            let sub ← M.foldEach (fun sub (p : PyStr × NodeId) => loadNode c fuel sub p.1 p.2) (.expand []) [(tn.name, t)]
            contConvert c sub : LM Addr) s1 (Gets P K W c R s1 r.addr) := by
          refine .bind (fold_part (I := fun cont R _ => ∃ l, cont = .expand l ∧ ∀ x ∈ l, R x r.addr) hh ih ?_ _ ?_ _ R s1 e2 ⟨[], rfl, by simp⟩) ?_
          · rintro cont R R' L L' hR _ ⟨l, h1, h2⟩
            exact ⟨l, h1, fun x hx => hR _ _ (h2 x hx)⟩
          · intro p hp
            simp at hp; subst hp
            refine ⟨r', hW, ?_⟩
            rintro cont R s y nd cont' s' ⟨l, rfl, h6⟩ _ hy _ _ ha
            cases ha
            refine ⟨_, rfl, fun z hz => ?_⟩
            rcases List.mem_append.1 hz with hz | hz
            · exact h6 z hz
            · simp at hz; subst hz; rw [← hra]; exact hy
          · rintro cont' s2 ⟨R1, k1, k2, k3, l, rfl, k4⟩
            cases l with
            | nil => exact .throw
            | cons y l => exact .pure ⟨R1, k1, k2, k3, k4 y (by simp)⟩
        have := this x s2 g2
        unfold Gets at this ⊢
        rw [e3] at this; exact this
    · unfold resolveType
      rw [hty]
      simp only [hbd]
      rfl
  | blank hbd hty => exact fun q s' hx => (null_part hh h hbd hty hx).elim
  | @bare o ho hty hraw =>
    intro q s' hx
    by_cases hnull : nd.body = .dset .nullRef
    · exact (null_part hh h hnull hty hx).elim
    unfold loadObj at hx
    cases hbd : nd.body with
    | group ls =>
      exfalso
      obtain ⟨a1, s1, f1, f2⟩ := M.bind_ok_iff.1 hx
      simp only [resolveType, hty, hbd] at f1
      simp [M.throw] at f1
    | dset d =>
      have hnr : ∀ t, d ≠ .ref t := by rintro t rfl; exact hraw.1 t hbd
      rw [M.bind_of_ok (a := ⟨.object, "pickle", "pickle", false⟩) (s1 := s)] at hx
      · dsimp only at hx
        obtain ⟨s1, e1, e2, e3, e4, e5⟩ := loader_part hh h (goodCls_object P c.env) (some "pickle")
        rw [M.bind_of_ok e1] at hx
        obtain ⟨x, s2, f1, f2⟩ := M.bind_ok_iff.1 hx
        rw [M.pure_apply] at f2; simp at f2; obtain ⟨rfl, rfl⟩ := f2
        have hf : c.mgr.loadFn s1.reg "pickle" = some .pickled := e5.loadFn e2.reg hh.mgr (b := "pickle") rfl
        unfold loadBody at f1
        rw [M.bind_of_ok (M.get_apply s1)] at f1
        simp only [hbd, hf, Option.getD_some, loadData] at f1
        have : Gets P K W c R s1 r.addr x s2 := by
          cases d with
          | pickleObj cl st =>
            have := hraw.2 cl st hbd
            subst this
            exact part_pickled e2 ho (hh.ok ho) rfl x s2 f1
          | _ =>
            rw [if_neg (by simp)] at f1
            exact (pickled_only (by simp) f1).elim
        unfold Gets at this ⊢
        rw [e3] at this; exact this
      · unfold resolveType
        rw [hty]
        simp only [hbd]
        cases d <;> first | rfl | exact absurd rfl (hnr _) | exact absurd hbd hnull
  | @typed o e od K0 ho hty hE hK hhd hbi hlk =>
    obtain ⟨s1, e1, e2, e3, e4⟩ := resolve_part h hty hE (importable_of_ok (hh.ok ho))
    obtain ⟨s2, f1, f2, f3, f4, f5⟩ := loader_part hh e2 (hh.good.cls _ _ ho) (some (expected c.env o.cls).2.base)
    intro q s' hx
    unfold loadObj at hx
    rw [M.bind_of_ok e1] at hx
    dsimp only at hx
    rw [M.bind_of_ok f1] at hx
    obtain ⟨x, s3, g1, g2⟩ := M.bind_ok_iff.1 hx
    rw [M.pure_apply] at g2; simp at g2; obtain ⟨rfl, rfl⟩ := g2
    have := body_part hh f2 ho ih hK hhd hbi hlk f5 x s3 g1
    unfold Gets at this ⊢
    rw [f3, e3] at this; exact this

/-- what is loaded from the nodes an interrupted dump left -/
theorem loadNode_part (hh : PHyp P base K W c) : ∀ fuel, NodeLoads P K W c fuel := by
  intro fuel
  induction fuel with
  | zero => intro R s n r cont name cont' s' _ _ hx; simp [loadNode, M.throw] at hx
  | succ fuel ih =>
    intro R s n r cont name cont' s' hW h hx
    obtain ⟨nd, h1, h2, h3, h4⟩ := hh.draft n r hW
    simp only [loadNode, h1] at hx
    rw [M.bind_of_ok (M.get_apply s)] at hx
    cases hm : Assoc.get? s.memo n with
    | some x =>
      rw [hm] at hx
      simp only at hx
      obtain ⟨r', k1, k2⟩ := h.memo n x hm
      have hr : r' = r := hh.uniq n r' r k1 hW
      have := contAppend_part h hx
      exact ⟨x, nd, R, s, s', h1, fun _ _ h => h, List.prefix_rfl, h, hr ▸ k2, hx, this.1, rfl, this.2⟩
    | none =>
      rw [hm] at hx
      simp only at hx
      obtain ⟨q, s1, f1, f2⟩ := M.bind_ok_iff.1 hx
      obtain ⟨R1, g1, g2, g3, g4⟩ := obj_part (n := n) hh h h4 ih q s1 f1
      unfold loadFinish at f2
      obtain ⟨cont2, s2, k1, k2⟩ := M.bind_ok_iff.1 f2
      obtain ⟨k3, k4⟩ := contAppend_part g3 k1
      cases hq : q.2 with
      | false =>
        rw [hq, if_neg (by simp), M.pure_apply] at k2
        simp at k2; obtain ⟨rfl, rfl⟩ := k2
        exact ⟨q.1, nd, R1, s1, s2, h1, g1, g2, g3, g4, k1, k3, rfl, k4⟩
      | true =>
        rw [hq, if_pos rfl] at k2
        rw [M.bind_of_ok (x := M.modify _) (a := ()) (s1 := { s2 with memo := Assoc.put s2.memo n q.1 }) rfl, M.pure_apply] at k2
        simp at k2; obtain ⟨rfl, rfl⟩ := k2
        refine ⟨q.1, nd, R1, s1, s2, h1, g1, g2, g3, g4, k1, { k3 with memo := ?_ }, rfl, k4⟩
        intro m x hmx
        simp only [Assoc.get?_put] at hmx
        split at hmx
        · next hmn => subst hmn; simp at hmx; subst hmx; exact ⟨r, hW, g4⟩
        · exact k3.memo m x hmx

end Verif
