import Verif.Hickle.LoadArr
/-!
# Loading one node

Every kind of node a dump writes is loaded back to a copy of its object.
-/
namespace Verif

variable {P : Nat → Prop} {base : Nat} {H : Heap} {W : Rel} {rk : Addr → Nat} {c : LCtx}

/-! ### class, loader and load function of a node -/

theorem unps_ps (s : String) : unps (ps s) = s := by
  unfold unps ps
  rw [List.map_map]
  have : (Char.ofNat ∘ Char.toNat) = id := by funext c; simp
  rw [this, List.map_id]
  simp

theorem expected_object {env : Env} {cl : Cls} (h : (expected env cl).1 = .object) :
    expected env cl = (.object, ⟨.pickled, "pickle", true⟩) := by
  unfold expected at h ⊢
  split
  · next e he =>
    rw [he] at h
    simp at h; subst h
    simp [Cls.mro, firstStd, stdReg] at he
  · rfl

theorem firstStd_mem {ks : List Cls} {e : Entry} (h : firstStd ks = some e) : ∃ k p, stdReg k = some (p, e) := by
  induction ks with
  | nil => simp [firstStd] at h
  | cons k ks ih =>
    simp only [firstStd] at h
    split at h
    · next p e' hs => simp at h; subst h; exact ⟨k, p, hs⟩
    · exact ih h

/-- load function of what a dump function wrote -/
def fnLoad : DumpFn → Option LoadFn
  | .scalar => some .scalar
  | .none => some .none
  | .listlike => some .list
  | .setlike => some .list
  | .npScalar => some .npScalar
  | .npArray => some .ndarray
  | .pickled => some .pickled
  | _ => none

theorem expected_load (env : Env) (cl : Cls) {f : LoadFn} (h : fnLoad (expected env cl).2.fn = some f) :
    ∃ p k, stdBase (expected env cl).2.base = some (p, some f, k) := by
  unfold expected at h ⊢
  split
  · next e he =>
    rw [he] at h
    obtain ⟨k, p, hs⟩ := firstStd_mem he
    simp only at h ⊢
    cases k <;> simp [stdReg] at hs <;> obtain ⟨rfl, rfl⟩ := hs <;> simp only [fnLoad, Option.some.injEq] at h <;>
      first | (subst h; exact ⟨_, _, rfl⟩) | simp at h
  · next he =>
    rw [he] at h
    simp only [fnLoad, Option.some.injEq] at h
    subst h; exact ⟨_, _, rfl⟩

theorem expected_memo (env : Env) (cl : Cls) (h : (expected env cl).2.memoise = false) :
    (expected env cl).2.fn = .scalar ∨ (expected env cl).2.fn = .none ∨ (expected env cl).2.fn = .npScalar ∨ (expected env cl).2.fn = .dumpNothing := by
  unfold expected at h ⊢
  split
  · next e he =>
    rw [he] at h
    obtain ⟨k, p, hs⟩ := firstStd_mem he
    simp only at h ⊢
    cases k <;> simp [stdReg] at hs <;> obtain ⟨rfl, rfl⟩ := hs <;> simp_all
  · next he => rw [he] at h; simp at h

theorem expected_native (env : Env) {cl : Cls} {e : Entry} {p} (h : stdReg cl = some (p, e)) (hu : ∀ k, cl ≠ .user k) :
    expected env cl = (cl, e) := by
  cases cl <;> first | (simp [stdReg] at h; done) | (simp [stdReg] at h; obtain ⟨rfl, rfl⟩ := h; rfl) | (exact absurd rfl (hu _))

/-- the type information of a dumped node is found again -/
theorem resolve_ok {G : Ghost} {s : LState} (hL : LInv P H W c G s) {nd : Node} {cl : Cls} {e : NodeId}
    (ht : Assoc.get? nd.attrs "type" = some (.ref e)) (he : EntryOk c.env c.store cl e) :
    ∃ s1, resolveType c nd s = (.ok (if clsImportable c.env cl then ⟨cl, (expected c.env cl).2.base, (expected c.env cl).2.base, nd.isGroup⟩
        else ⟨.recover, "!recover!", (expected c.env cl).2.base, nd.isGroup⟩), s1) ∧
      LInv P H W c G s1 ∧ s1.heap = s.heap ∧ s1.memo = s.memo := by
  obtain ⟨en, b, bn, h1, h2, h3, h4, h5⟩ := id he
  unfold resolveType
  rw [ht]
  simp only []
  cases hc : Assoc.get? s.tcache e with
  | some ti =>
    have hk := hL.tc e ti cl hc he
    subst hk
    refine ⟨s, ?_, hL, rfl, rfl⟩
    rw [M.bind_of_ok (a := typeInfo c.env cl) (s1 := s)]
    · unfold typeInfo; cases clsImportable c.env cl <;> rfl
    · unfold resolveEntry
      rw [h1]
      simp only []
      rw [M.bind_of_ok (M.get_apply s), hc]
      rfl
  | none =>
    refine ⟨{ s with tcache := Assoc.put s.tcache e (typeInfo c.env cl) }, ?_, ?_, rfl, rfl⟩
    · rw [M.bind_of_ok (a := typeInfo c.env cl) (s1 := { s with tcache := Assoc.put s.tcache e (typeInfo c.env cl) })]
      · unfold typeInfo; cases clsImportable c.env cl <;> rfl
      · unfold resolveEntry
        rw [h1]
        simp only []
        rw [M.bind_of_ok (M.get_apply s), hc]
        simp only [h3, h4, h5, unps_ps, h2]
        rfl
    · exact { hL with
        tc := by
          intro e' ti cl' h' he'
          simp only [Assoc.get?_put] at h'
          split at h'
          · next hee =>
            subst hee
            simp at h'; subst h'
            obtain ⟨en', b', bn', k1, k2, k3, k4, k5⟩ := he'
            rw [h1] at k1; simp at k1; subst k1
            rw [h2] at k2; simp at k2; subst k2
            rfl
          · exact hL.tc e' ti cl' h' he' }

/-! ### results of the body -/

structure BodyOk (P : Nat → Prop) (H : Heap) (W : Rel) (rk : Addr → Nat) (c : LCtx) (s : LState) (G : Ghost) (a x : Addr)
    (G1 : Ghost) (s1 : LState) : Prop where
  inv : LInv P H W c G1 s1
  le : G.Le G1
  heap : s.heap <+: s1.heap
  res : G1.R x a
  shared : ∀ y b o, G1.R y b → H[b]? = some o → o.val.hasIdentity = true → o ≠ unitObj →
    (∃ n, W n b ∧ Assoc.get? s1.memo n = some y) ∨ (y = x ∧ b = a)
  memo : ∀ n, Assoc.get? s1.memo n = Assoc.get? s.memo n ∨ ∃ b, W n b ∧ rk b < rk a

/-- a new object that is a copy of `a`, or what `a` is recovered to -/
theorem BodyOk.allocOf {s s1 : LState} {G G1 : Ghost} {a : Addr} (hL : LInv P H W c G1 s1) (hS : Shared H W G1 s1) (hle : G.Le G1)
    (hp : s.heap <+: s1.heap) (hmemo : ∀ n, Assoc.get? s1.memo n = Assoc.get? s.memo n ∨ ∃ b, W n b ∧ rk b < rk a)
    {o o' : Obj} (ho : H[a]? = some o) (hu : o ≠ unitObj) (hv : CopyOf c.env H G1.R G1.N G1.Q o' o) :
    ∃ x G2 s2, lAlloc o' s1 = (.ok x, s2) ∧ BodyOk P H W rk c s G a x G2 s2 := by
  refine ⟨s1.heap.length, G1.addR s1.heap.length a, _, rfl, hL.allocR ho hu hv, hle.trans (G1.le_addR _ _),
    hp.trans (List.prefix_append _ _), .inr ⟨rfl, rfl⟩, ?_, hmemo⟩
  rintro y b q (hy | hy) hq hid hqu
  · exact .inl (hS y b q hy hq hid hqu)
  · exact .inr hy

/-- a new object that is a copy of `a` -/
theorem BodyOk.alloc {s s1 : LState} {G G1 : Ghost} {a : Addr} (hL : LInv P H W c G1 s1) (hS : Shared H W G1 s1) (hle : G.Le G1)
    (hp : s.heap <+: s1.heap) (hmemo : ∀ n, Assoc.get? s1.memo n = Assoc.get? s.memo n ∨ ∃ b, W n b ∧ rk b < rk a)
    {o o' : Obj} (ho : H[a]? = some o) (hl : o.lost c.env = false) (hu : o ≠ unitObj) (hc : o'.cls = o.cls) (hv : ValCopy H G1.R G1.N G1.Q o'.val o.val) :
    ∃ x G2 s2, lAlloc o' s1 = (.ok x, s2) ∧ BodyOk P H W rk c s G a x G2 s2 :=
  BodyOk.allocOf hL hS hle hp hmemo ho hu (.inl ⟨hl, hc, hv⟩)

/-- the empty tuple -/
theorem BodyOk.unit {s s1 : LState} {G G1 : Ghost} {a : Addr} (hL : LInv P H W c G1 s1) (hS : Shared H W G1 s1) (hle : G.Le G1)
    (hp : s.heap <+: s1.heap) (hmemo : ∀ n, Assoc.get? s1.memo n = Assoc.get? s.memo n ∨ ∃ b, W n b ∧ rk b < rk a)
    (ho : H[a]? = some unitObj) : BodyOk P H W rk c s G a nobody G1 s1 :=
  ⟨hL, hle, hp, hL.unitR a ho, fun y b q hy hq hid hqu => .inl (hS y b q hy hq hid hqu), hmemo⟩

theorem BodyOk.alloc0 {s : LState} {G : Ghost} (hL : LInv P H W c G s) (hS : Shared H W G s)
    {a : Addr} {o o' : Obj} (ho : H[a]? = some o) (hl : o.lost c.env = false) (hu : o ≠ unitObj) (hc : o'.cls = o.cls) (hv : ValCopy H G.R G.N G.Q o'.val o.val) :
    ∃ x G2 s2, lAlloc o' s = (.ok x, s2) ∧ BodyOk P H W rk c s G a x G2 s2 :=
  BodyOk.alloc hL hS (.refl G) List.prefix_rfl (fun _ => .inl rfl) ho hl hu hc hv

/-- an atom -/
theorem BodyOk.atom {s : LState} {G : Ghost} (hL : LInv P H W c G s) (hS : Shared H W G s)
    {a : Addr} {o : Obj} (ho : H[a]? = some o) (hl : o.lost c.env = false) (hv : o.val.isAtom = true) :
    ∃ x G2 s2, lAlloc o s = (.ok x, s2) ∧ BodyOk P H W rk c s G a x G2 s2 :=
  BodyOk.alloc0 hL hS ho hl (by rintro rfl; simp [unitObj, Val.isAtom] at hv) rfl (.atom hv)

/-- `construct` succeeds -/
theorem construct_ok {env : Env} {k : Nat} {arg : CtorArg} {v : Val} (h : (env.u k).ctor arg = .ok v) (s : LState) :
    construct env k arg s = lAlloc ⟨.user k, v⟩ s := by
  unfold construct
  rw [M.bind_of_ok (a := v) (s1 := s) (by rw [h]; rfl)]

/-! ### scalars -/

theorem showInt_length {i : Int} (h : 63 < bitLength i) : 2 ≤ (asciiBytes (showInt i)).length := by
  unfold asciiBytes; rw [List.length_map]
  have hb : ¬ bitLength i ≤ 63 := by omega
  rw [bitLength_le_63] at hb
  have hd : 2 ≤ (digits i.natAbs).length := by
    rw [digits]
    rw [if_neg (by omega)]
    rw [List.length_append]
    have := digits_ne_nil (i.natAbs / 10)
    have := List.length_pos_iff.2 this
    simp; omega
  cases i with
  | ofNat n => exact hd
  | negSucc n =>
    have h : (digits (n + 1)).length = (digits (Int.negSucc n).natAbs).length := rfl
    simp only [showInt, List.length_cons]; omega

theorem bytesText_ascii (i : Int) : bytesText (asciiBytes (showInt i)) = showInt i := by
  unfold bytesText asciiBytes
  rw [List.map_map]
  have : ∀ s : PyStr, (∀ c ∈ s, c < 256) → s.map (UInt8.toNat ∘ UInt8.ofNat) = s := by
    intro s hs
    induction s with
    | nil => rfl
    | cons c cs ih =>
      simp only [List.map_cons, Function.comp]
      rw [toNat_ofNat_lt (hs c (by simp))]
      congr 1
      exact ih fun d hd => hs d (by simp [hd])
  refine this _ fun x hx => ?_
  rcases showInt_chars i x hx with h | h
  · simp [isDigit] at h; omega
  · omega

theorem load_int {s : LState} {G : Ghost} (hL : LInv P H W c G s) (hS : Shared H W G s) {a : Addr} {o : Obj} (ho : H[a]? = some o)
    (hok : ObjOk c.env o) {i : Int} (hv : o.val = .int i) {d : Data}
    (hd : (d = .scalar (.i i)) ∨ (d = .raw (asciiBytes (showInt i)) ∧ 63 < bitLength i ∧ digitsOk c.env i = true)) :
    ∃ x G2 s2, loadScalar c.env d o.cls s = (.ok x, s2) ∧ BodyOk P H W rk c s G a x G2 s2 := by
  obtain ⟨x, G2, s2, h1, h2⟩ := BodyOk.atom (rk := rk) hL hS ho hok.live (by rw [hv]; rfl)
  refine ⟨x, G2, s2, ?_, h2⟩
  obtain ⟨cl, val⟩ := o
  simp only at hv; subst hv
  rw [← h1]
  rcases hd with rfl | ⟨rfl, hb, hdg⟩
  · cases cl <;> simp [ObjOk, NativeOk] at hok
    · rfl
    · exact construct_ok hok.2.2.1 s
  · have := showInt_length hb
    simp only [loadScalar]
    rw [if_neg (by omega)]
    cases cl <;> simp [ObjOk, NativeOk] at hok
    · simp only [bytesText_ascii, parseInt_showInt, hdg, if_true]
    · exact construct_ok hok.2.2.2 s

theorem load_bool {s : LState} {G : Ghost} (hL : LInv P H W c G s) (hS : Shared H W G s) {a : Addr} {o : Obj} (ho : H[a]? = some o)
    (hok : ObjOk c.env o) {b : Bool} (hv : o.val = .bool b) :
    ∃ x G2 s2, loadScalar c.env (.scalar (.b b)) o.cls s = (.ok x, s2) ∧ BodyOk P H W rk c s G a x G2 s2 := by
  obtain ⟨x, G2, s2, h1, h2⟩ := BodyOk.atom (rk := rk) hL hS ho hok.live (by rw [hv]; rfl)
  refine ⟨x, G2, s2, ?_, h2⟩
  obtain ⟨cl, val⟩ := o
  simp only at hv; subst hv
  rw [← h1]
  cases cl <;> simp [ObjOk, NativeOk, UserOk] at hok
  rfl

theorem load_float {s : LState} {G : Ghost} (hL : LInv P H W c G s) (hS : Shared H W G s) {a : Addr} {o : Obj} (ho : H[a]? = some o)
    (hok : ObjOk c.env o) {f : F64} (hv : o.val = .float f) :
    ∃ x G2 s2, loadScalar c.env (.scalar (.f f)) o.cls s = (.ok x, s2) ∧ BodyOk P H W rk c s G a x G2 s2 := by
  obtain ⟨x, G2, s2, h1, h2⟩ := BodyOk.atom (rk := rk) hL hS ho hok.live (by rw [hv]; rfl)
  refine ⟨x, G2, s2, ?_, h2⟩
  obtain ⟨cl, val⟩ := o
  simp only at hv; subst hv
  rw [← h1]
  cases cl <;> simp [ObjOk, NativeOk, UserOk] at hok
  · rfl
  · exact construct_ok hok.2.2 s

theorem load_cplx {s : LState} {G : Ghost} (hL : LInv P H W c G s) (hS : Shared H W G s) {a : Addr} {o : Obj} (ho : H[a]? = some o)
    (hok : ObjOk c.env o) {f g : F64} (hv : o.val = .cplx f g) :
    ∃ x G2 s2, loadScalar c.env (.scalar (.c f g)) o.cls s = (.ok x, s2) ∧ BodyOk P H W rk c s G a x G2 s2 := by
  obtain ⟨x, G2, s2, h1, h2⟩ := BodyOk.atom (rk := rk) hL hS ho hok.live (by rw [hv]; rfl)
  refine ⟨x, G2, s2, ?_, h2⟩
  obtain ⟨cl, val⟩ := o
  simp only at hv; subst hv
  rw [← h1]
  cases cl <;> simp [ObjOk, NativeOk, UserOk] at hok
  · rfl
  · exact construct_ok hok.2.2 s

/-! ### strings, bytes -/

theorem load_str {s : LState} {G : Ghost} (hL : LInv P H W c G s) (hS : Shared H W G s) {a : Addr} {o : Obj} (ho : H[a]? = some o)
    (hok : ObjOk c.env o) {t : PyStr} (hv : o.val = .str t) {b : Bytes} (hb : utf8Encode t = some b) {attrs : Attrs}
    (hat : Assoc.get? attrs "str_type" = some (.bytes (o.cls.name c.env.u))) :
    ∃ x G2 s2, loadList c.env (.chars b) attrs o.cls s = (.ok x, s2) ∧ BodyOk P H W rk c s G a x G2 s2 := by
  obtain ⟨x, G2, s2, h1, h2⟩ := BodyOk.atom (rk := rk) hL hS ho hok.live (by rw [hv]; rfl)
  refine ⟨x, G2, s2, ?_, h2⟩
  obtain ⟨cl, val⟩ := o
  simp only at hv; subst hv
  rw [← h1]
  cases cl <;> simp [ObjOk, NativeOk, UserOk] at hok
  simp only [loadList]
  rw [if_pos (by rw [hat]; rfl), utf8Decode_encode hb]

theorem load_bytes {s : LState} {G : Ghost} (hL : LInv P H W c G s) (hS : Shared H W G s) {a : Addr} {o : Obj} (ho : H[a]? = some o)
    (hok : ObjOk c.env o) {b : Bytes} (hv : o.val = .bytes b) {attrs : Attrs}
    (hat : Assoc.get? attrs "str_type" = some (.bytes (o.cls.name c.env.u))) :
    ∃ x G2 s2, loadList c.env (.chars b) attrs o.cls s = (.ok x, s2) ∧ BodyOk P H W rk c s G a x G2 s2 := by
  obtain ⟨x, G2, s2, h1, h2⟩ := BodyOk.atom (rk := rk) hL hS ho hok.live (by rw [hv]; rfl)
  refine ⟨x, G2, s2, ?_, h2⟩
  obtain ⟨cl, val⟩ := o
  simp only at hv; subst hv
  rw [← h1]
  cases cl <;> simp [ObjOk, NativeOk, UserOk] at hok
  · simp only [loadList]
    rw [if_neg (by rw [hat]; simp [Cls.name])]
  · simp only [loadList]
    rw [if_neg (by rw [hat]; simp [Cls.name, hok.2.2.1])]
    exact construct_ok hok.2.2.2 s

/-! ### empty sequences, numbers in sequences -/

theorem numDt_of {items : List Addr} {d : DT} (h : ∃ a ∈ items, ∃ p v, H[a]? = some p ∧ exactNum p = some v ∧ v.dt = d) :
    ∃ a ∈ items, numDt H a = some d := by
  obtain ⟨a, h1, p, v, h2, h3, h4⟩ := h
  exact ⟨a, h1, by simp [numDt, h2, h3, h4]⟩

theorem numDt_none {items : List Addr} (h : ∃ a ∈ items, ∃ p, H[a]? = some p ∧ exactNum p = none) :
    ∃ a ∈ items, numDt H a = none := by
  obtain ⟨a, h1, p, h2, h3⟩ := h
  exact ⟨a, h1, by simp [numDt, h2, h3]⟩

theorem castNum_same {d : DT} {v w : NpVal} (h : castNum d v = some w) (hd : d = v.dt) : w = v := by
  subst hd
  cases v <;> simp [castNum, NpVal.dt] at h <;> first | exact h.symm | exact h.2.symm

theorem cast_items {items : List Addr} {d : DT} {vs : List NpVal} (h : items.mapM (castItem H d) = some vs) :
    All2 (fun o' a => ∃ o, H[a]? = some o ∧ SameNum d o o') (vs.map fun v => (⟨v.cls, .np v⟩ : Obj)) items := by
  have key : ∀ l : List Addr, (∀ a ∈ l, a ∈ items) → ∀ vs, l.mapM (castItem H d) = some vs →
      All2 (fun o' a => ∃ o, H[a]? = some o ∧ SameNum d o o') (vs.map fun v => (⟨v.cls, .np v⟩ : Obj)) l := by
    intro l
    induction l with
    | nil => intro _ vs h; simp at h; subst h; exact .nil
    | cons a l ih =>
      intro hl vs h
      simp only [List.mapM_cons, Option.bind_eq_bind, Option.bind_eq_some_iff, Option.pure_def, Option.some.injEq] at h
      obtain ⟨w, h1, ws, h2, rfl⟩ := h
      refine .cons ?_ (ih (fun x hx => hl x (by simp [hx])) ws h2)
      unfold castItem at h1
      split at h1
      · next o ho =>
        obtain ⟨v, e1, e2⟩ := Option.bind_eq_some_iff.1 h1
        refine ⟨o, ho, v, w, e1, rfl, e2, fun hf => (castNum_exact e2 ?_).1⟩
        rintro x rfl hne
        refine hf x rfl ?_
        cases d
        · simp [castNum] at e2
        · exact absurd rfl hne
        · exact .inl rfl
        · exact .inr rfl
      · simp at h1
  exact key items (fun _ h => h) vs h

theorem Shared.of_memo {G G1 : Ghost} {s s1 : LState} (h : Shared H W G s) (hR : G1.R = G.R) (hm : s1.memo = s.memo) : Shared H W G1 s1 := by
  intro x a o hx ho hi hu
  rw [hR] at hx; rw [hm]
  exact h x a o hx ho hi hu

theorem load_seqNil {s : LState} {G : Ghost} (hL : LInv P H W c G s) (hS : Shared H W G s) {a : Addr} {o : Obj} (ho : H[a]? = some o)
    (hok : ObjOk c.env o) (hv : o.val = .seq []) {t : String} {attrs : Attrs} :
    ∃ x G2 s2, loadList c.env (.null t) attrs o.cls s = (.ok x, s2) ∧ BodyOk P H W rk c s G a x G2 s2 := by
  obtain ⟨cl, val⟩ := o
  simp only at hv; subst hv
  by_cases hu : cl = .tuple
  · subst hu
    exact ⟨nobody, G, s, rfl, BodyOk.unit hL hS (.refl G) List.prefix_rfl (fun _ => .inl rfl) ho⟩
  · obtain ⟨x, G2, s2, h1, h2⟩ := BodyOk.alloc0 (rk := rk) hL hS ho hok.live (by simp [unitObj, hu]) (o' := ⟨cl, .seq []⟩) rfl (.seq (.inl ⟨.nil, .inl rfl⟩))
    refine ⟨x, G2, s2, ?_, h2⟩
    rw [← h1]
    cases cl <;> simp [ObjOk, NativeOk, UserOk] at hok
    · rfl
    · exact absurd rfl hu
    · exact construct_ok hok.2.2.1 s

theorem load_seqVec {s : LState} {G : Ghost} (hL : LInv P H W c G s) (hS : Shared H W G s) {a : Addr} {o : Obj} (ho : H[a]? = some o)
    (hok : ObjOk c.env o) {items : List Addr} (hv : o.val = .seq items) (hne : items ≠ []) {d : DT} {vs : List NpVal}
    (h : items.mapM (castItem H d) = some vs) (hw : ∃ a ∈ items, ∃ p v, H[a]? = some p ∧ exactNum p = some v ∧ v.dt = d) {attrs : Attrs} :
    ∃ x G2 s2, loadList c.env (.vec d vs) attrs o.cls s = (.ok x, s2) ∧ BodyOk P H W rk c s G a x G2 s2 := by
  have hlv := hok.live
  obtain ⟨xs, G1, s1, e1, i1, l1, r1, p1, m1, a1⟩ := hL.allocs (cast_items h)
  obtain ⟨cl, val⟩ := o
  simp only at hv; subst hv
  have hxs : xs ≠ [] := by
    rintro rfl
    have := a1.length
    cases items with
    | nil => exact hne rfl
    | cons _ _ => simp at this
  obtain ⟨x, G2, s2, h1, h2⟩ := BodyOk.alloc (rk := rk) (s := s) i1 (hS.of_memo r1 m1) l1 p1 (fun _ => .inl (by rw [m1])) ho hlv
    (by simp [unitObj, hne]) (o' := ⟨cl, .seq xs⟩) rfl (.seq (.inr ⟨d, numDt_of hw, a1⟩))
  refine ⟨x, G2, s2, ?_, h2⟩
  simp only [loadList]
  rw [M.bind_of_ok e1, ← h1]
  cases cl <;> simp [ObjOk, NativeOk, UserOk] at hok
  · rfl
  · simp only [mkSeq]; rw [if_neg hxs]
  · exact construct_ok (hok.2.2.2 xs) s1

theorem load_setVec {s : LState} {G : Ghost} (hL : LInv P H W c G s) (hS : Shared H W G s) {a : Addr} {o : Obj} (ho : H[a]? = some o)
    (hok : ObjOk c.env o) {items : List Addr} (hv : o.val = .set items) (hdist : Distinct c.env H items) (hlive : ∀ b ∈ items, Hashed c.env H b) (hn : NumsOk H items) {d : DT} {vs : List NpVal}
    (hc : All2 (fun o' a => ∃ o, H[a]? = some o ∧ SameNum d o o') (vs.map fun v => (⟨v.cls, .np v⟩ : Obj)) items)
    (hw : items = [] ∨ ∃ a ∈ items, numDt H a = some d) {attrs : Attrs} :
    ∃ x G2 s2, loadList c.env (.vec d vs) attrs o.cls s = (.ok x, s2) ∧ BodyOk P H W rk c s G a x G2 s2 := by
  have hlv := hok.live
  obtain ⟨xs, G1, s1, e1, i1, l1, r1, p1, m1, a1⟩ := hL.allocs hc
  have hic : ItemsCopy H G1.R G1.N xs items := by
    rcases hw with rfl | hw
    · cases a1; exact .inl ⟨.nil, .inl rfl⟩
    · exact .inr ⟨d, hw, a1⟩
  obtain ⟨cl, val⟩ := o
  simp only at hv; subst hv
  obtain ⟨x, G2, s2, h1, h2⟩ := BodyOk.alloc (rk := rk) (s := s) i1 (hS.of_memo r1 m1) l1 p1 (fun _ => .inl (by rw [m1])) ho hlv
    (by simp [unitObj]) (o' := ⟨cl, .set xs⟩) rfl (.set hic (List.Perm.refl _))
  refine ⟨x, G2, s2, ?_, h2⟩
  simp only [loadList]
  rw [M.bind_of_ok e1, ← h1]
  cases cl <;> simp [ObjOk, NativeOk, UserOk] at hok
  · simp only []
    rw [M.bind_of_ok (M.get_apply s1), M.bind_of_ok (a := xs) (s1 := s1)]
    · rfl
    · rw [i1.setOf [] [] .nil (i1.items_X hic hn) (by simpa using hdist) (by simpa using hlive)]; rfl
  · exact construct_ok (hok.2.2 xs) s1

/-! ### groups -/

theorem load_seqItems (hh : LHyp P base H W rk c) {s : LState} {G : Ghost} (hL : LInv P H W c G s) (hS : Shared H W G s) {a : Addr} {o : Obj} (ho : H[a]? = some o) (hok : ObjOk c.env o)
    {items : List Addr} (hv : o.val = .seq items) (hne : items ≠ []) (hnn : ∃ c ∈ items, ∃ p, H[c]? = some p ∧ exactNum p = none) {fuel : Nat} (ih : ChildLoads P H W rk c fuel a)
    {ls : List (PyStr × NodeId)} (hk : Kids base H c.store W ls (listSubs 0 items)) :
    ∃ x G2 s2, (do
      let sub ← M.foldEach (fun sub (p : PyStr × NodeId) => loadNode c fuel sub p.1 p.2) (.list o.cls (List.replicate items.length nobody)) (c.order ls)
      contConvert c sub : LM Addr) s = (.ok x, s2) ∧ BodyOk P H W rk c s G a x G2 s2 := by
  have hlv := hok.live
  obtain ⟨zs0, z1, z2, z3⟩ := hk.zip
  obtain ⟨zs, hp, hl⟩ := perm_map_lift Kid.link (hh.order ls) zs0 z1
  have hz : SeqKids items zs := (seqKids_of z2 fun k hk => (z3 k hk).1).perm hp
  have hkid : ∀ k ∈ zs, rk k.addr < rk a ∧ Child c.store W k.node k.addr k.sub.attrs := by
    intro k hk
    refine ⟨hh.ranked a o ho _ ?_, (z3 k (hp.mem_iff.1 hk)).2⟩
    rw [hv]; exact List.mem_of_getElem? (hz.at' k hk).2
  obtain ⟨cont', G1, s1, f1, f2, f3, f4, f5, f6, f7⟩ := fold_kids (I := ListState (.list o.cls) items.length) ih hkid (fun _ _ _ _ h => ListState.mono h)
    (list_keeps hz _ fun _ _ _ _ _ _ _ _ h => by simp only [contAppend, h]; rfl) zs []
    (.list o.cls (List.replicate items.length nobody)) G s rfl
    ⟨_, rfl, by simp, fun i hi => .inr ⟨by simp, by rw [List.getElem?_replicate, if_pos hi]⟩⟩ hL hS
  obtain ⟨xs, rfl, hxs⟩ := f7.final hz
  rw [← hl, M.bind_of_ok f1]
  obtain ⟨cl, val⟩ := o
  simp only at hv; subst hv
  have hxne : xs ≠ [] := by
    rintro rfl
    have := hxs.length
    cases items with
    | nil => exact hne rfl
    | cons _ _ => simp at this
  obtain ⟨x, G2, s2, h1, h2⟩ := BodyOk.alloc (rk := rk) (s := s) f2 f3 f4 f5 f6 ho hlv
    (by simp [unitObj, hne]) (o' := ⟨cl, .seq xs⟩) rfl (.seq (.inl ⟨hxs, .inr (numDt_none hnn)⟩))
  refine ⟨x, G2, s2, ?_, h2⟩
  rw [← h1]
  simp only [contConvert]
  cases cl <;> simp [ObjOk, NativeOk, UserOk] at hok
  · rfl
  · simp only [mkSeq]; rw [if_neg hxne]
  · exact construct_ok (hok.2.2.2 xs) s1

theorem LHyp.hashed (hh : LHyp P base H W rk c) {a : Addr} {o : Obj} (ho : H[a]? = some o) {items : List Addr} (hv : o.val = .set items)
    (hl : o.lost c.env = false) : ∀ b ∈ items, Hashed c.env H b :=
  fun b hb => ⟨(hh.good.sets a o items ho hv hl).2 b hb, (hh.good.nums a o items ho hv hl).2 b hb⟩

theorem load_setItems (hh : LHyp P base H W rk c) {s : LState} {G : Ghost} (hL : LInv P H W c G s) (hS : Shared H W G s) {a : Addr} {o : Obj} (ho : H[a]? = some o) (hok : ObjOk c.env o)
    {items : List Addr} (hv : o.val = .set items) (hnn : ∃ c ∈ items, ∃ p, H[c]? = some p ∧ exactNum p = none) {fuel : Nat} (ih : ChildLoads P H W rk c fuel a)
    {ls : List (PyStr × NodeId)} (hk : Kids base H c.store W ls (listSubs 0 items)) :
    ∃ x G2 s2, (do
      let sub ← M.foldEach (fun sub (p : PyStr × NodeId) => loadNode c fuel sub p.1 p.2) (.set o.cls []) (c.order ls)
      contConvert c sub : LM Addr) s = (.ok x, s2) ∧ BodyOk P H W rk c s G a x G2 s2 := by
  have hlv := hok.live
  obtain ⟨zs0, z1, z2, z3⟩ := hk.zip
  obtain ⟨zs, hp, hl⟩ := perm_map_lift Kid.link (hh.order ls) zs0 z1
  have hz : SeqKids items zs := (seqKids_of z2 fun k hk => (z3 k hk).1).perm hp
  have hkid : ∀ k ∈ zs, rk k.addr < rk a ∧ Child c.store W k.node k.addr k.sub.attrs := by
    intro k hk
    refine ⟨hh.ranked a o ho _ ?_, (z3 k (hp.mem_iff.1 hk)).2⟩
    rw [hv]; exact List.mem_of_getElem? (hz.at' k hk).2
  obtain ⟨cont', G1, s1, f1, f2, f3, f4, f5, f6, f7⟩ := fold_kids (I := SetState o.cls) ih hkid (fun _ _ _ _ h => SetState.mono h)
    (set_keeps hz (hh.good.sets a o items ho hv hlv).1 (hh.hashed ho hv hlv) o.cls) zs [] (.set o.cls []) G s rfl ⟨_, rfl, .nil⟩ hL hS
  obtain ⟨xs, rfl, hxs⟩ := f7
  rw [← hl, M.bind_of_ok f1]
  obtain ⟨cl, val⟩ := o
  simp only at hv; subst hv
  obtain ⟨x, G2, s2, h1, h2⟩ := BodyOk.alloc (rk := rk) (s := s) f2 f3 f4 f5 f6 ho hlv
    (by simp [unitObj]) (o' := ⟨cl, .set xs⟩) rfl (.set (.inl ⟨hxs, .inr ((numDt_none hnn).imp fun c hc => ⟨hz.addrs.mem_iff.2 hc.1, hc.2⟩)⟩) hz.addrs)
  refine ⟨x, G2, s2, ?_, h2⟩
  rw [← h1]
  simp only [contConvert]
  cases cl <;> simp [ObjOk, NativeOk, UserOk] at hok
  · rfl
  · exact construct_ok (hok.2.2 xs) s1

/-- the copy of a key -/
theorem EntryCopy.key_X {G : Ghost} {e' e : Addr × Addr} (h : EntryCopy H G.R G.N G.Q e' e) (hk : KeyNumOk H e.1 e.2) : G.X H e'.1 e.1 := by
  rcases h with ⟨h1, _⟩ | ⟨hp, ⟨h1, _⟩ | ⟨d, hd, h1⟩⟩
  · exact .inr (.inr h1)
  · cases h1 with | cons h1 _ => exact .inl h1
  · cases h1 with
    | cons h1 _ =>
      refine .inr (.inl ⟨d, h1, ?_⟩)
      rintro o v ho hv x rfl hfl
      obtain ⟨q, hq, hpl⟩ := hp
      rw [ho] at hq; simp at hq; subst hq
      obtain ⟨b, hb, hbd⟩ := hd
      simp only [List.mem_cons, List.not_mem_nil, or_false] at hb
      rcases hb with rfl | rfl
      · simp [numDt, ho, hv] at hbd
        subst hbd
        simp [NpVal.dt] at hfl
      · cases hq : H[e.2]? with
        | none => simp [numDt, hq] at hbd
        | some q =>
          cases hw : exactNum q with
          | none => simp [numDt, hq, hw] at hbd
          | some w =>
            simp [numDt, hq, hw] at hbd
            exact hk o q x w ho hq hpl hv hw (by rw [hbd]; exact hfl)

theorem load_dict (hh : LHyp P base H W rk c) {s : LState} {G : Ghost} (hL : LInv P H W c G s) (hS : Shared H W G s) {a : Addr} {o : Obj} (ho : H[a]? = some o) (hok : ObjOk c.env o)
    {es : List (Addr × Addr)} (hv : o.val = .dict es) {fuel : Nat} (ih : ChildLoads P H W rk c fuel a)
    {ls : List (PyStr × NodeId)} (hk : Kids base H c.store W ls (dictSubs c.env H 0 es)) :
    ∃ x G2 s2, (do
      let sub ← M.foldEach (fun sub (p : PyStr × NodeId) => loadNode c fuel sub p.1 p.2) (.dict o.cls []) (c.order ls)
      contConvert c sub : LM Addr) s = (.ok x, s2) ∧ BodyOk P H W rk c s G a x G2 s2 := by
  have hlv := hok.live
  obtain ⟨zs0, z1, z2, z3⟩ := hk.zip
  obtain ⟨zs, hp, hl⟩ := perm_map_lift Kid.link (hh.order ls) zs0 z1
  have hz : DictKids c.env base H es zs := (dictKids_of z2 fun k hk => (z3 k hk).1).perm hp
  obtain ⟨hdist, hkeys⟩ := hh.good.keys a o es ho hv hok.live
  have hknums := hh.good.knums a o es ho hv hok.live
  obtain ⟨cl, val⟩ := o
  simp only at hv; subst hv
  have hkid : ∀ k ∈ zs, rk k.addr < rk a ∧ Child c.store W k.node k.addr k.sub.attrs := by
    intro k hk
    refine ⟨?_, (z3 k (hp.mem_iff.1 hk)).2⟩
    obtain ⟨e, h1, h2, h3⟩ := hz.at' k hk
    have hmem : e ∈ es := List.mem_of_getElem? h1
    rcases dictSub_idx h2 with ⟨_, _, _, _, _, hsb⟩ | ⟨hsb, _⟩
    · rw [hsb] at h3; simp only [SubAt] at h3
      refine hh.ranked a _ ho _ ?_
      simp only [Val.children, List.mem_flatMap]
      exact ⟨e, hmem, by simp [h3]⟩
    · rw [hsb] at h3; simp only [SubAt] at h3
      exact hh.pairs a k.addr e.1 e.2 cl es ho hmem h3.1 h3.2
  obtain ⟨cont', G1, s1, f1, f2, f3, f4, f5, f6, f7⟩ := fold_kids (I := DictState H cl es) ih hkid (fun _ _ _ _ h => DictState.mono h)
    (dict_keeps hz (fun k v h q hq => ⟨hh.good.ok k q hq ((hkeys k v h).1 k q .here hq), (hkeys k v h).2 q hq⟩) cl) zs [] (.dict cl []) G s rfl
    ⟨[], rfl, by simp, fun i e _ => .inr ⟨by simp, .inl rfl⟩⟩ hL hS
  obtain ⟨content, rfl, hcont⟩ := f7.final hz
  rw [← hl, M.bind_of_ok f1]
  obtain ⟨es', d1, d2⟩ := dictPairs_ok f2 hcont
  obtain ⟨x, G2, s2, h1, h2⟩ := BodyOk.alloc (rk := rk) (s := s) f2 f3 f4 f5 f6 ho hlv
    (by simp [unitObj]) (o' := ⟨cl, .dict es'⟩) rfl (.dict d2)
  refine ⟨x, G2, s2, ?_, h2⟩
  rw [← h1]
  simp only [contConvert]
  rw [M.bind_of_ok (M.get_apply s1), M.bind_of_ok (a := es') (s1 := s1) (by rw [d1]; rfl)]
  cases cl <;> simp [ObjOk, NativeOk, UserOk] at hok
  · simp only []
    have hkeysT : ∀ {l' l}, All2 (EntryCopy H G1.R G1.N G1.Q) l' l → (∀ k v, (k, v) ∈ l → KeyNumOk H k v) → All2 (fun (e : Addr × Addr) b => G1.X H e.1 b) l' (l.map Prod.fst) := by
      intro l' l h hkn
      induction h with
      | nil => exact .nil
      | @cons e' e _ _ h1 _ ih =>
        exact .cons (h1.key_X (hkn e.1 e.2 (by simp))) (ih fun k v hkv => hkn k v (by simp [hkv]))
    have hkl : ∀ b ∈ [] ++ es.map Prod.fst, Hashed c.env H b := by
      intro b hb
      simp only [List.nil_append, List.mem_map] at hb
      obtain ⟨⟨k, v⟩, he, rfl⟩ := hb
      exact ⟨(hkeys k v he).1, (hknums k v he).2⟩
    rw [M.bind_of_ok (a := es') (s1 := s1)]
    rw [f2.dictOf [] [] .nil (hkeysT d2 fun k v hkv => (hknums k v hkv).1) (by simpa using hdist) hkl]; rfl
  · exact construct_ok (hok.2.2 es') s1

/-! ### numpy and pickled objects -/

theorem load_np {s : LState} {G : Ghost} (hL : LInv P H W c G s) (hS : Shared H W G s) {a : Addr} {o : Obj} (ho : H[a]? = some o)
    (hok : ObjOk c.env o) {v : NpVal} (hv : o.val = .np v) {attrs : Attrs} (hat : Assoc.get? attrs "np_dtype" = some (.dt v.dt)) :
    ∃ x G2 s2, loadNpScalar (.scalar v) attrs s = (.ok x, s2) ∧ BodyOk P H W rk c s G a x G2 s2 := by
  obtain ⟨x, G2, s2, h1, h2⟩ := BodyOk.atom (rk := rk) hL hS ho hok.live (by rw [hv]; rfl)
  refine ⟨x, G2, s2, ?_, h2⟩
  obtain ⟨cl, val⟩ := o
  simp only at hv; subst hv
  rw [← h1]
  simp only [loadNpScalar, hat, if_true]
  cases cl <;> cases v <;> simp [ObjOk, NativeOk, UserOk] at hok <;> rfl

theorem load_arr {s : LState} {G : Ghost} (hL : LInv P H W c G s) (hS : Shared H W G s) {a : Addr} {o : Obj} (ho : H[a]? = some o)
    (hok : ObjOk c.env o) {d : DT} {shape data} (hv : o.val = .arr d shape data) {attrs : Attrs} (hat : Assoc.get? attrs "np_dtype" = some (.dt d)) :
    ∃ x G2 s2, loadNdarray (.array d shape data) attrs o.cls s = (.ok x, s2) ∧ BodyOk P H W rk c s G a x G2 s2 := by
  obtain ⟨x, G2, s2, h1, h2⟩ := BodyOk.atom (rk := rk) hL hS ho hok.live (by rw [hv]; rfl)
  refine ⟨x, G2, s2, ?_, h2⟩
  obtain ⟨cl, val⟩ := o
  simp only at hv; subst hv
  rw [← h1]
  simp only [loadNdarray, hat, loadNumArray, ne_eq, not_true, if_false]
  cases cl <;> simp [ObjOk, NativeOk, UserOk] at hok
  · rfl
  · rw [if_pos hok]

theorem load_sstr {s : LState} {G : Ghost} (hL : LInv P H W c G s) (hS : Shared H W G s) {a : Addr} {o : Obj} (ho : H[a]? = some o)
    (hok : ObjOk c.env o) {w : Nat} {t : PyStr} (hv : o.val = .sarr w [] [t]) {b : Bytes} (hb : utf8Encode t = some b) {attrs : Attrs}
    (hat : Assoc.get? attrs "np_dtype" = some (.udt w)) {cls : Cls} :
    ∃ x G2 s2, loadNdarray (.chars b) attrs cls s = (.ok x, s2) ∧ BodyOk P H W rk c s G a x G2 s2 := by
  obtain ⟨x, G2, s2, h1, h2⟩ := BodyOk.atom (rk := rk) hL hS ho hok.live (by rw [hv]; rfl)
  refine ⟨x, G2, s2, ?_, h2⟩
  obtain ⟨cl, val⟩ := o
  simp only at hv; subst hv
  rw [← h1]
  cases cl <;> simp [ObjOk, NativeOk, UserOk, sarrOk] at hok
  simp only [loadNdarray, hat, loadStrArray, utf8Decode_encode hb, if_neg hok.1.1, fixStr_of_width hok.2]

/-! ### arrays of strings and objects -/

theorem arr_append {cl : Cls} {attrs : Attrs} (content : List Addr) (name : PyStr) (x : Addr) (at' : Attrs) (s : LState) (content' : List Addr)
    (h1 : Assoc.get? at' "base_type" = none) (h2 : name ≠ ps "data") (h3 : listAppend content name x at' = .ok content') :
    contAppend c (.ndarray cl attrs content none) name x at' s = (.ok (.ndarray cl attrs content' none), s) := by
  simp only [contAppend, arrAppend, h1, h2, h3]
  rfl

/-- the rows of an array: the copies of the lists made for the dump -/
theorem load_rows (hh : LHyp P base H W rk c) {s : LState} {G : Ghost} (hL : LInv P H W c G s) (hS : Shared H W G s) {a : Addr} {o : Obj} (ho : H[a]? = some o)
    {n : Nat} {sh : List Nat} {lfs : List Leaf} {dt : AttrVal} (hr : RowsOf o n sh lfs dt) (hlen : lfs.length = n * shSize sh)
    {fuel : Nat} (ih : ChildLoads P H W rk c fuel a) {ls : List (PyStr × NodeId)} (hk : Kids base H c.store W ls (nestSubs sh 0 n lfs)) (cl : Cls) (attrs : Attrs) :
    ∃ xs rows G1 s1, M.foldEach (fun sub (p : PyStr × NodeId) => loadNode c fuel sub p.1 p.2)
        (.ndarray cl attrs (List.replicate n nobody) none) (c.order ls) s = (.ok (.ndarray cl attrs xs none), s1) ∧
      LInv P H W c G1 s1 ∧ Shared H W G1 s1 ∧ G.Le G1 ∧ s.heap <+: s1.heap ∧
      (∀ n, Assoc.get? s1.memo n = Assoc.get? s.memo n ∨ ∃ b, W n b ∧ rk b < rk a) ∧
      All2 G1.R xs rows ∧ rows.length = n ∧ All2 (fun r l => Nested base H .list sh l r) rows (rowsOf (shSize sh) n lfs) := by
  obtain ⟨zs0, z1, z2, z3⟩ := hk.zip
  obtain ⟨zs, hp, hl⟩ := perm_map_lift Kid.link (hh.order ls) zs0 z1
  obtain ⟨hz0, hnest⟩ := nestKids_of z2 fun k hk => (z3 k hk).1
  have hn : (zs0.map Kid.addr).length = n := by rw [hnest.length, rowsOf_length]
  have hz := hz0.perm hp
  have hkid : ∀ k ∈ zs, rk k.addr < rk a ∧ Child c.store W k.node k.addr k.sub.attrs := by
    intro k hk
    obtain ⟨h1, h2⟩ := z3 k (hp.mem_iff.1 hk)
    refine ⟨?_, h2⟩
    have : Except.ok k.sub ∈ nestSubs sh 0 n lfs := by rw [← z2]; exact List.mem_map_of_mem (f := fun k : Kid => (Except.ok k.sub : Except PyErr Sub)) (hp.mem_iff.1 hk)
    obtain ⟨j, hj, e⟩ := nestSubs_mem this
    rw [e] at h1
    exact hh.nests a _ o _ _ _ ho (by cases hr with | str h => rw [h]; rfl | obj h => rw [h]; rfl) (hr.nest hlen hj) h1
  obtain ⟨cont', G1, s1, f1, f2, f3, f4, f5, f6, f7⟩ := fold_kids (I := ListState (fun l => .ndarray cl attrs l none) (zs0.map Kid.addr).length) ih hkid
    (fun _ _ _ _ h => ListState.mono h) (list_keeps hz _ arr_append) zs [] (.ndarray cl attrs (List.replicate n nobody) none) G s rfl
    ⟨_, rfl, by simp [hn], fun i hi => .inr ⟨by simp, by rw [List.getElem?_replicate, if_pos (by omega)]⟩⟩ hL hS
  obtain ⟨xs, rfl, hxs⟩ := f7.final hz
  exact ⟨xs, _, G1, s1, by rw [← hl]; exact f1, f2, f3, f4, f5, f6, hxs, hn, hnest⟩

theorem mem_rowsOf {sz k : Nat} {lfs l : List Leaf} (h : l ∈ rowsOf sz k lfs) : ∃ j < k, l = (lfs.drop (j * sz)).take sz := by
  obtain ⟨j, hj⟩ := List.getElem?_of_mem h
  have hlt := lt_of_getElem? hj
  rw [rowsOf_length] at hlt
  rw [rowsOf_get hlt] at hj
  exact ⟨j, hlt, by simpa using hj.symm⟩

theorem load_strs (hh : LHyp P base H W rk c) {s : LState} {G : Ghost} (hL : LInv P H W c G s) (hS : Shared H W G s) {a : Addr} {o : Obj} (ho : H[a]? = some o) (hok : ObjOk c.env o)
    {w n : Nat} {sh : List Nat} {data : List PyStr} (hv : o.val = .sarr w (n :: sh) data)
    {fuel : Nat} (ih : ChildLoads P H W rk c fuel a) {ls : List (PyStr × NodeId)}
    (hk : Kids base H c.store W ls (nestSubs sh 0 n (data.map fun s => .obj ⟨.str, .str s⟩))) {attrs : Attrs} (hat : Assoc.get? attrs "np_dtype" = some (.udt w)) :
    ∃ x G2 s2, (do
      let sub ← M.foldEach (fun sub (p : PyStr × NodeId) => loadNode c fuel sub p.1 p.2) (.ndarray o.cls attrs (List.replicate n nobody) none) (c.order ls)
      contConvert c sub : LM Addr) s = (.ok x, s2) ∧ BodyOk P H W rk c s G a x G2 s2 := by
  have hlv := hok.live
  obtain ⟨cl, val⟩ := o
  simp only at hv; subst hv
  cases cl <;> simp [ObjOk, NativeOk, UserOk, sarrOk, shSize] at hok
  obtain ⟨⟨⟨hw, hn, hsh⟩, hlen⟩, hfix⟩ := hok
  have hlen := of_decide_eq_true hlen
  have hlen' : (data.map fun s => Leaf.obj ⟨.str, .str s⟩).length = n * shSize sh := by simpa using hlen
  obtain ⟨xs, rows, G1, s1, f1, f2, f3, f4, f5, f6, g1, g2, g3⟩ := load_rows hh hL hS ho (.str rfl) hlen' ih hk .ndarray attrs
  obtain ⟨ys, e1, e2⟩ := f2.arrayOf (fun _ => rfl) hn hsh g2 g1 g3 (by
    intro l hl
    have hs : ∀ x ∈ l, ∃ t, x = Leaf.obj ⟨.str, .str t⟩ := by
      intro x hx
      obtain ⟨j, _, rfl⟩ := mem_rowsOf hl
      have := List.mem_of_mem_drop (List.mem_of_mem_take hx)
      simp only [List.mem_map] at this
      obtain ⟨t, _, e⟩ := this
      exact ⟨t, e.symm⟩
    refine ⟨?_, ?_⟩
    · intro x hx q hq
      obtain ⟨t, rfl⟩ := hs x hx
      exact ⟨_, hq.2, rfl, rfl⟩
    · intro k hk i hi
      have hpos : 0 < k := Nat.pos_of_ne_zero (hsh k (List.mem_of_getLast? hk))
      have hne : ((l.drop (i * k)).take k) ≠ [] := by
        intro he
        have := congrArg List.length he
        rw [List.length_take, List.length_drop] at this
        simp at this; omega
      obtain ⟨x, t, hxt⟩ := List.exists_cons_of_ne_nil hne
      refine ⟨x, by rw [hxt]; simp, ?_⟩
      obtain ⟨u, rfl⟩ := hs x (List.mem_of_mem_drop (List.mem_of_mem_take (by rw [hxt]; simp : x ∈ (l.drop (i * k)).take k)))
      intro q hq
      simp [numDt, hq.2, exactNum])
  rw [rowsOf_flatten hlen'] at e2
  rw [M.bind_of_ok f1]
  obtain ⟨x, G2, s2, h1, h2⟩ := BodyOk.alloc (rk := rk) (s := s) f2 f3 f4 f5 f6 ho hlv (by simp [unitObj]) (o' := ⟨.ndarray, .sarr w (n :: sh) data⟩) rfl (.atom rfl)
  refine ⟨x, G2, s2, ?_, h2⟩
  rw [← h1]
  simp only [contConvert, arrConvert]
  rw [M.bind_of_ok (M.get_apply s1)]
  simp only [hat, e1]
  rw [M.bind_of_ok (a := data) (s1 := s1) (by rw [stringsOf_ok (e2.strs f2) fun t ht => fixStr_of_width (hfix t ht)]; rfl), if_pos ⟨trivial, hw⟩]

theorem rowsMixed {base : Nat} {sh : List Nat} {items : List Addr} (h : ObjArrOk H sh items)
    (hl : ∀ x ∈ items, ∀ q : Obj, H[x]? = some q → q.lost c.env = false) : LeavesOk c.env base H sh (items.map .addr) := by
  refine ⟨?_, ?_⟩
  · intro l hl q hq
    simp only [List.mem_map] at hl
    obtain ⟨x, hx, rfl⟩ := hl
    rw [show q = x from hq]
    obtain ⟨o, e1, e2⟩ := h.1 x hx
    exact ⟨o, e1, e2, hl x hx o e1⟩
  · intro n hn i hi
    obtain ⟨x, hx, hd⟩ := h.2 n hn i (by simpa using hi)
    refine ⟨.addr x, ?_, fun q hq => by rw [show q = x from hq]; exact hd⟩
    rw [← List.map_drop, ← List.map_take]
    exact List.mem_map_of_mem hx

theorem load_objs (hh : LHyp P base H W rk c) {s : LState} {G : Ghost} (hL : LInv P H W c G s) (hS : Shared H W G s) {a : Addr} {o : Obj} (ho : H[a]? = some o) (hok : ObjOk c.env o)
    {n m : Nat} {sh : List Nat} {items : List Addr} (hv : o.val = .oarr (n :: m :: sh) items)
    {fuel : Nat} (ih : ChildLoads P H W rk c fuel a) {ls : List (PyStr × NodeId)}
    (hk : Kids base H c.store W ls (nestSubs (m :: sh) 0 n (items.map .addr))) {attrs : Attrs} (hat : Assoc.get? attrs "np_dtype" = some .odt) :
    ∃ x G2 s2, (do
      let sub ← M.foldEach (fun sub (p : PyStr × NodeId) => loadNode c fuel sub p.1 p.2) (.ndarray o.cls attrs (List.replicate n nobody) none) (c.order ls)
      contConvert c sub : LM Addr) s = (.ok x, s2) ∧ BodyOk P H W rk c s G a x G2 s2 := by
  have hlv := hok.live
  have hoa := hh.good.oarrs a o _ _ ho hv
  obtain ⟨cl, val⟩ := o
  simp only at hv; subst hv
  cases cl <;> simp [ObjOk, NativeOk, UserOk, shSize] at hok
  obtain ⟨⟨hn, hm, hsh⟩, hlen⟩ := hok
  have hlen := of_decide_eq_true hlen
  have hlen' : (items.map Leaf.addr).length = n * shSize (m :: sh) := by simpa [shSize] using hlen
  obtain ⟨xs, rows, G1, s1, f1, f2, f3, f4, f5, f6, g1, g2, g3⟩ := load_rows hh hL hS ho (.obj rfl) hlen' ih hk .ndarray attrs
  have hlvs : LeavesOk c.env base H (n :: m :: sh) (rowsOf (shSize (m :: sh)) n (items.map Leaf.addr)).flatten := by
    rw [rowsOf_flatten hlen']; exact rowsMixed hoa.1 hoa.2
  obtain ⟨ys, e1, e2⟩ := f2.arrayOf (fun _ => rfl) hn (by simpa using ⟨hm, hsh⟩) g2 g1 g3 (hlvs.row (by
    intro l hl
    obtain ⟨j, hj, rfl⟩ := mem_rowsOf hl
    have := mul_le_of_lt (k := shSize (m :: sh)) hj
    rw [List.length_take, List.length_drop]; omega))
  rw [rowsOf_flatten hlen'] at e2
  rw [M.bind_of_ok f1]
  obtain ⟨x, G2, s2, h1, h2⟩ := BodyOk.alloc (rk := rk) (s := s) f2 f3 f4 f5 f6 ho hlv (by simp [unitObj]) (o' := ⟨.ndarray, .oarr (n :: m :: sh) ys⟩) rfl (.oarr e2.addrs)
  refine ⟨x, G2, s2, ?_, h2⟩
  rw [← h1]
  simp only [contConvert, arrConvert]
  rw [M.bind_of_ok (M.get_apply s1)]
  simp only [hat, e1, if_true]

theorem load_oseq (hh : LHyp P base H W rk c) {s : LState} {G : Ghost} (hL : LInv P H W c G s) (hS : Shared H W G s) {a : Addr} {o : Obj} (ho : H[a]? = some o) (hok : ObjOk c.env o)
    {n : Nat} {items : List Addr} (hv : o.val = .oarr [n] items)
    {fuel : Nat} (ih : ChildLoads P H W rk c fuel a) {ls : List (PyStr × NodeId)}
    (hk : Kids base H c.store W ls (listSubs 0 items)) {attrs : Attrs} (hat : Assoc.get? attrs "np_dtype" = some .odt) :
    ∃ x G2 s2, (do
      let sub ← M.foldEach (fun sub (p : PyStr × NodeId) => loadNode c fuel sub p.1 p.2) (.ndarray o.cls attrs (List.replicate items.length nobody) none) (c.order ls)
      contConvert c sub : LM Addr) s = (.ok x, s2) ∧ BodyOk P H W rk c s G a x G2 s2 := by
  have hlv := hok.live
  have hoa := hh.good.oarrs a o _ _ ho hv
  obtain ⟨zs0, z1, z2, z3⟩ := hk.zip
  obtain ⟨zs, hp, hl⟩ := perm_map_lift Kid.link (hh.order ls) zs0 z1
  have hz : SeqKids items zs := (seqKids_of z2 fun k hk => (z3 k hk).1).perm hp
  have hkid : ∀ k ∈ zs, rk k.addr < rk a ∧ Child c.store W k.node k.addr k.sub.attrs := by
    intro k hk
    refine ⟨hh.ranked a o ho _ ?_, (z3 k (hp.mem_iff.1 hk)).2⟩
    rw [hv]; exact List.mem_of_getElem? (hz.at' k hk).2
  obtain ⟨cl, val⟩ := o
  simp only at hv; subst hv
  cases cl <;> simp [ObjOk, NativeOk, UserOk, shSize] at hok
  obtain ⟨hn, hlen⟩ := hok
  obtain ⟨cont', G1, s1, f1, f2, f3, f4, f5, f6, f7⟩ := fold_kids (I := ListState (fun l => .ndarray .ndarray attrs l none) items.length) ih hkid
    (fun _ _ _ _ h => ListState.mono h) (list_keeps hz _ arr_append) zs [] (.ndarray .ndarray attrs (List.replicate items.length nobody) none) G s rfl
    ⟨_, rfl, by simp, fun i hi => .inr ⟨by simp, by rw [List.getElem?_replicate, if_pos hi]⟩⟩ hL hS
  obtain ⟨xs, rfl, hxs⟩ := f7.final hz
  have hnest : All2 (fun r l => Nested base H .list [] l r) items (items.map fun x => [Leaf.addr x]) := by
    clear hlv hxs hlen hoa ho hz hkid f1 hk z2 f7
    induction items with
    | nil => exact .nil
    | cons x items ih => exact .cons ⟨_, rfl, rfl⟩ ih
  obtain ⟨ys, e1, e2⟩ := f2.arrayOf (fun _ => rfl) hn (by simp) hlen hxs hnest (by
    intro l hl
    simp only [List.mem_map] at hl
    obtain ⟨x, hx, rfl⟩ := hl
    refine ⟨?_, by simp⟩
    intro l hl q hq
    simp only [List.mem_singleton] at hl; subst hl
    rw [show q = x from hq]
    obtain ⟨o, e1, e2⟩ := hoa.1.1 x hx
    exact ⟨o, e1, e2, hoa.2 x hx o e1⟩)
  have hfl : (items.map fun x => [Leaf.addr x]).flatten = items.map Leaf.addr := by
    clear hlv e2 hnest hxs hlen hoa ho hz hkid f1 hk z2 f7
    induction items with
    | nil => rfl
    | cons x items ih => simp [ih]
  rw [hfl] at e2
  rw [← hl, M.bind_of_ok f1]
  obtain ⟨x, G2, s2, h1, h2⟩ := BodyOk.alloc (rk := rk) (s := s) f2 f3 f4 f5 f6 ho hlv (by simp [unitObj]) (o' := ⟨.ndarray, .oarr [n] ys⟩) rfl (.oarr e2.addrs)
  refine ⟨x, G2, s2, ?_, h2⟩
  rw [← h1]
  simp only [contConvert, arrConvert]
  rw [M.bind_of_ok (M.get_apply s1)]
  simp only [hat, e1, if_true]

/-! ### groups with named members -/

/-- a container after the kids `done`: the copy of each is found under its name -/
def NamedState (form : Cont → Prop) (gets : Cont → PyStr → Option Addr) (done : List Kid) (cont : Cont) (G : Ghost) : Prop :=
  form cont ∧ ∀ k ∈ done, ∃ x, gets cont k.sub.name = some x ∧ G.R x k.addr

theorem NamedState.mono {form gets done cont} {G G' : Ghost} (hle : G.Le G') (h : NamedState form gets done cont G) : NamedState form gets done cont G' := by
  obtain ⟨h1, h2⟩ := h
  refine ⟨h1, fun k hk => ?_⟩
  obtain ⟨x, e1, e2⟩ := h2 k hk
  exact ⟨x, e1, hle.R _ _ e2⟩

/-- what appending to the container does: the new item is found under its name, the others stay -/
def Appends (c : LCtx) (form : Cont → Prop) (gets : Cont → PyStr → Option Addr) (name : PyStr) : Prop :=
  ∀ cont, form cont → ∀ x attrs (s : LState), Assoc.get? attrs "base_type" = none → ∃ cont', contAppend c cont name x attrs s = (.ok cont', s) ∧
    form cont' ∧ gets cont' name = some x ∧ ∀ n, n ≠ name → gets cont' n = gets cont n

theorem named_keeps {zs : List Kid} (hz : (zs.map fun k => k.sub.name).Nodup) {form gets} (ha : ∀ k ∈ zs, Appends c form gets k.sub.name) :
    KeepsOn P H W c zs (NamedState form gets) := by
  intro done k rest cont G s x nd hd hI hL hR hnd hat hbt
  obtain ⟨hf, hg⟩ := hI
  obtain ⟨cont', h1, h2, h3, h4⟩ := ha k (by rw [← hd]; simp) cont hf x nd.attrs s hbt
  refine ⟨cont', G, s, h1, hL, .refl G, rfl, List.prefix_rfl, rfl, h2, ?_⟩
  intro k' hk'
  rcases List.mem_append.1 hk' with hk' | hk'
  · have hne : k'.sub.name ≠ k.sub.name := by
      rw [← hd, List.map_append, List.map_cons] at hz
      exact (List.nodup_append.1 hz).2.2 _ (List.mem_map_of_mem hk') _ (by simp)
    rw [h4 _ hne]; exact hg k' hk'
  · simp at hk'; subst hk'
    exact ⟨x, h3, hR⟩

/-- a group whose members are told apart by their names -/
theorem load_named (hh : LHyp P base H W rk c) {s : LState} {G : Ghost} (hL : LInv P H W c G s) (hS : Shared H W G s) {a : Addr}
    {fuel : Nat} (ih : ChildLoads P H W rk c fuel a) {ls : List (PyStr × NodeId)} {sbs : List Sub} (hk : Kids base H c.store W ls (sbs.map .ok))
    (hn : (sbs.map Sub.name).Nodup) (hr : ∀ sb ∈ sbs, ∀ b, SubAt base H sb.obj b → rk b < rk a) {form : Cont → Prop} {gets}
    (ha : ∀ sb ∈ sbs, Appends c form gets sb.name) {cont : Cont} (hc : form cont) :
    ∃ cont' G1 s1, M.foldEach (fun sub (p : PyStr × NodeId) => loadNode c fuel sub p.1 p.2) cont (c.order ls) s = (.ok cont', s1) ∧
      LInv P H W c G1 s1 ∧ Shared H W G1 s1 ∧ G.Le G1 ∧ s.heap <+: s1.heap ∧
      (∀ n, Assoc.get? s1.memo n = Assoc.get? s.memo n ∨ ∃ b, W n b ∧ rk b < rk a) ∧
      form cont' ∧ ∀ sb ∈ sbs, ∃ x b, gets cont' sb.name = some x ∧ G1.R x b ∧ SubAt base H sb.obj b := by
  obtain ⟨zs0, z1, z2, z3⟩ := hk.zip
  have z2' : zs0.map Kid.sub = sbs := by
    have : (zs0.map Kid.sub).map (Except.ok (ε := PyErr)) = sbs.map .ok := by rw [List.map_map]; exact z2
    exact List.map_inj_right (fun _ _ h => by simpa using h) |>.1 this
  subst z2'
  obtain ⟨zs, hp, hl⟩ := perm_map_lift Kid.link (hh.order ls) zs0 z1
  have hkid : ∀ k ∈ zs, rk k.addr < rk a ∧ Child c.store W k.node k.addr k.sub.attrs := by
    intro k hk
    have hk := hp.mem_iff.1 hk
    exact ⟨hr _ (List.mem_map_of_mem hk) _ (z3 k hk).1, (z3 k hk).2⟩
  have hnd : (zs.map fun k => k.sub.name).Nodup := by
    rw [List.map_map] at hn
    exact (hp.map _).nodup_iff.2 hn
  obtain ⟨cont', G1, s1, f1, f2, f3, f4, f5, f6, f7⟩ := fold_kids (I := NamedState form gets) ih hkid
    (fun _ _ _ _ h => NamedState.mono h) (named_keeps hnd fun k hk => ha _ (List.mem_map_of_mem (hp.mem_iff.1 hk))) zs [] cont G s rfl
    ⟨hc, by simp⟩ hL hS
  refine ⟨cont', G1, s1, by rw [← hl]; exact f1, f2, f3, f4, f5, f6, f7.1, ?_⟩
  intro sb hsb
  obtain ⟨k, hk, rfl⟩ := List.mem_map.1 hsb
  obtain ⟨x, e1, e2⟩ := f7.2 k (hp.mem_iff.2 hk)
  exact ⟨x, k.addr, e1, e2, (z3 k hk).1⟩

/-- the copy of an object without references -/
theorem LInv.atom {G : Ghost} {s : LState} (h : LInv P H W c G s) {x p : Addr} (hR : G.R x p) {o : Obj} (hp : H[p]? = some o) (hl : o.lost c.env = false) (ha : o.val.isAtom = true) :
    s.heap[x]? = some o := by
  obtain ⟨o', e2, e3, e4⟩ := h.live hR hp hl
  obtain ⟨cl, v⟩ := o
  obtain ⟨cl', v'⟩ := o'
  simp only at ha e3 e4; subst e3
  cases e4 with
  | atom => exact e2
  | _ => simp [Val.isAtom] at ha

/-- an array without dimensions that holds an object -/
theorem load_oone (hh : LHyp P base H W rk c) {s : LState} {G : Ghost} (hL : LInv P H W c G s) (hS : Shared H W G s) {a : Addr} {o : Obj} (ho : H[a]? = some o) (hok : ObjOk c.env o)
    {e : Addr} (hv : o.val = .oarr [] [e]) {fuel : Nat} (ih : ChildLoads P H W rk c fuel a) {ls : List (PyStr × NodeId)}
    (hk : Kids base H c.store W ls [.ok ⟨ps "data", .addr e, []⟩]) {attrs : Attrs} (hat : Assoc.get? attrs "np_dtype" = some .odt) {l : List Addr} :
    ∃ x G2 s2, (do
      let sub ← M.foldEach (fun sub (p : PyStr × NodeId) => loadNode c fuel sub p.1 p.2) (.ndarray o.cls attrs l none) (c.order ls)
      contConvert c sub : LM Addr) s = (.ok x, s2) ∧ BodyOk P H W rk c s G a x G2 s2 := by
  have hlv := hok.live
  have hoa := hh.good.oarrs a o _ _ ho hv
  have hrk := hh.ranked a o ho
  obtain ⟨cl, val⟩ := o
  simp only at hv; subst hv
  cases cl <;> simp [ObjOk, NativeOk, UserOk] at hok
  obtain ⟨cont', G1, s1, f1, f2, f3, f4, f5, f6, ⟨y, rfl⟩, f8⟩ := load_named hh hL hS ih (sbs := [⟨ps "data", .addr e, []⟩]) hk (by simp)
    (by intro sb hsb b hb; simp at hsb; subst hsb; rw [show b = e from hb]; exact hrk e (by simp [Val.children]))
    (form := fun cont => ∃ y, cont = .ndarray .ndarray attrs l y) (gets := fun cont n => if n = ps "data" then (match cont with | .ndarray _ _ _ y => y | _ => none) else none)
    (by
      intro sb hsb
      simp at hsb; subst hsb
      rintro cont ⟨y, rfl⟩ x at' s h
      refine ⟨.ndarray .ndarray attrs l (some x), ?_, ⟨_, rfl⟩, by simp, fun n hn => by simp [if_neg hn]⟩
      simp only [contAppend, arrAppend, decide_true, Bool.or_true, if_true]
      rfl) (cont := .ndarray .ndarray attrs l none) ⟨_, rfl⟩
  obtain ⟨x, b, g1, g2, g3⟩ := f8 ⟨ps "data", .addr e, []⟩ (by simp)
  simp only [if_true] at g1
  subst g1
  rw [show b = e from g3] at g2
  rw [M.bind_of_ok f1]
  obtain ⟨r, G2, s2, h1, h2⟩ := BodyOk.alloc (rk := rk) (s := s) f2 f3 f4 f5 f6 ho hlv (by simp [unitObj]) (o' := ⟨.ndarray, .oarr [] [x]⟩) rfl (.oarr (.cons g2 .nil))
  refine ⟨r, G2, s2, ?_, h2⟩
  rw [← h1]
  obtain ⟨q, hq, hd⟩ := hoa.1.1 e (by simp)
  obtain ⟨o', e2, _, e4⟩ := f2.live g2 hq (hoa.2 e (by simp) q hq)
  have := objShape_noDims e2 (noDims_copy e4 hd) (lt_of_getElem? e2)
  simp only [contConvert, arrConvert]
  rw [M.bind_of_ok (M.get_apply s1)]
  have harr : arrayOf s1.heap l (some x) = some ([], [x]) := by
    simp only [arrayOf, this]; rfl
  simp only [hat, harr, if_true]

theorem mapM_npBit (l : List Bool) : (l.map NpVal.b).mapM npBit = some l := by
  induction l with
  | nil => rfl
  | cons b l ih => simp [npBit, ih]

/-- a masked array -/
theorem load_masked (hh : LHyp P base H W rk c) {s : LState} {G : Ghost} (hL : LInv P H W c G s) (hS : Shared H W G s) {a : Addr} {o : Obj} (ho : H[a]? = some o) (hok : ObjOk c.env o)
    {d : DT} {shape : List Nat} {data : List NpVal} {mask : Option (List Bool)} (hv : o.val = .masked d shape data mask) {fuel : Nat} (ih : ChildLoads P H W rk c fuel a)
    {ls : List (PyStr × NodeId)} (hk : Kids base H c.store W ls [.ok ⟨ps "data", .nest .list [] [.obj ⟨.ndarray, .arr d shape data⟩], []⟩,
        .ok ⟨ps "mask", .nest .list [] [.obj (maskObj shape mask)], []⟩]) {attrs : Attrs} (hat : Assoc.get? attrs "np_dtype" = some (.dt d)) :
    ∃ x G2 s2, (do
      let sub ← M.foldEach (fun sub (p : PyStr × NodeId) => loadNode c fuel sub p.1 p.2) (.masked o.cls attrs []) (c.order ls)
      contConvert c sub : LM Addr) s = (.ok x, s2) ∧ BodyOk P H W rk c s G a x G2 s2 := by
  have hlv := hok.live
  obtain ⟨cl, val⟩ := o
  simp only at hv; subst hv
  cases cl <;> simp [ObjOk, NativeOk, UserOk] at hok
  have hnest : ∀ q, LeafOf (.masked d shape data mask) q → ∀ b, Nested base H .list [] [.obj q] b → rk b < rk a := fun q hq b hb =>
    hh.nests a b _ _ _ _ ho rfl (nest_obj (by simp) hq) hb
  have hmo : LeafOf (.masked d shape data mask) (maskObj shape mask) := by cases mask <;> constructor
  obtain ⟨cont', G1, s1, f1, f2, f3, f4, f5, f6, ⟨y, rfl⟩, f8⟩ := load_named hh hL hS ih (sbs := [⟨ps "data", .nest .list [] [.obj ⟨.ndarray, .arr d shape data⟩], []⟩,
        ⟨ps "mask", .nest .list [] [.obj (maskObj shape mask)], []⟩]) hk (by simp; decide)
    (by
      intro sb hsb b hb
      simp at hsb
      rcases hsb with rfl | rfl
      · exact hnest _ .data b hb
      · exact hnest _ hmo b hb)
    (form := fun cont => ∃ l, cont = .masked .masked attrs l) (gets := fun cont n => match cont with | .masked _ _ l => Assoc.get? l n | _ => none)
    (by
      intro sb _
      rintro cont ⟨l, rfl⟩ x at' s h
      refine ⟨.masked .masked attrs (Assoc.put l sb.name x), rfl, ⟨_, rfl⟩, by simp [Assoc.get?_put_self], fun n hn => ?_⟩
      exact Assoc.get?_put_ne _ _ (Ne.symm hn)) (cont := .masked .masked attrs []) ⟨_, rfl⟩
  obtain ⟨x, b, g1, g2, ⟨_, g3, g4⟩⟩ := f8 _ (List.mem_cons_self ..)
  obtain ⟨x', b', k1, k2, ⟨_, k3, k4⟩⟩ := f8 _ (List.mem_cons_of_mem _ (List.mem_cons_self ..))
  simp only [List.cons.injEq, and_true] at g1 k1 g3 k3
  subst g3 k3
  have hx := f2.atom g2 g4.2 rfl rfl
  have hx' := f2.atom k2 k4.2 (by cases mask <;> rfl) (by cases mask <;> rfl)
  rw [M.bind_of_ok f1]
  obtain ⟨r, G2, s2, h1, h2⟩ := BodyOk.alloc (rk := rk) (s := s) f2 f3 f4 f5 f6 ho hlv (by simp [unitObj]) (o' := ⟨.masked, .masked d shape data mask⟩) rfl (.atom rfl)
  refine ⟨r, G2, s2, ?_, h2⟩
  rw [← h1]
  have hm : maskOf shape data.length (maskObj shape mask) = some mask := by
    cases mask with
    | none => rfl
    | some l =>
      simp only [maskObj, maskOf, if_true]
      rw [mapM_npBit]; rfl
  simp only [contConvert, maskedConvert]
  rw [M.bind_of_ok (M.get_apply s1)]
  simp only [hat, g1, k1, hx, hx', hm, and_self, if_true]

theorem All2.left {α β : Type} {r : α → β → Prop} {xs : List α} {ys : List β} (h : All2 r xs ys) {x : α} (hx : x ∈ xs) : ∃ y, r x y := by
  induction h with
  | nil => simp at hx
  | cons h1 _ ih =>
    rcases List.mem_cons.1 hx with rfl | hx
    · exact ⟨_, h1⟩
    · exact ih hx

/-- the numbers of the shape of a sparse matrix -/
theorem LInv.shape {G : Ghost} {s : LState} (h : LInv P H W c G s) {shape : List Nat} {x p : Addr} (hR : G.R x p)
    (hn : Nested base H .tuple [shape.length] (shape.map fun (n : Nat) => .obj ⟨.int, .int n⟩) p) : shapeOf s.heap x = some shape := by
  obtain ⟨_, rows, lss, h1, h2, h3, h4⟩ := hn
  obtain ⟨xs, hx, hic⟩ := h.seq hR h1 rfl
  have hint : All2 (fun (r n : Nat) => H[r]? = some ⟨.int, .int n⟩) rows shape := by
    clear hx hic h1 h2
    induction h4 generalizing shape with
    | nil =>
      cases shape with
      | nil => exact .nil
      | cons => simp at h3
    | cons h5 _ ih =>
      obtain ⟨l, rfl, hl⟩ := h5
      cases shape with
      | nil => simp at h3
      | cons n shape =>
        simp only [List.map_cons, List.flatten_cons, List.singleton_append, List.cons.injEq] at h3
        obtain ⟨rfl, h3⟩ := h3
        exact .cons hl.2 (ih h3)
  unfold shapeOf
  rw [hx]
  simp only []
  have key : All2 (fun y r => ∀ n : Nat, H[r]? = some ⟨.int, .int n⟩ → natAt s.heap y = some n) xs rows := by
    rcases hic with ⟨hr, -⟩ | ⟨dt, ⟨r0, hr0, hd⟩, hr⟩
    · refine hr.imp fun y r _ _ hyr n hn => ?_
      have := h.atom hyr hn rfl rfl
      simp [natAt, this]
    · have hdt : dt = .int64 := by
        obtain ⟨n, hn⟩ := hint.left hr0
        simp [numDt, hn, exactNum, NpVal.dt] at hd
        exact hd.symm
      subst hdt
      refine hr.imp fun y r _ _ hyr n hn => ?_
      obtain ⟨o, o', e1, e2, v, w, e3, rfl, e5, _⟩ := h.num _ _ _ hyr
      rw [hn] at e1; simp at e1; subst e1
      simp [exactNum] at e3; subst e3
      have := castNum_same e5 rfl
      subst this
      simp [natAt, e2]
  clear hic hx h1 h2 h4 hR h3
  induction hint generalizing xs with
  | nil => cases key; rfl
  | cons h1 _ ih =>
    cases key with
    | cons k1 k2 =>
      simp [k1 _ h1, ih _ k2]

/-- a sparse matrix -/
theorem load_sparse (hh : LHyp P base H W rk c) {s : LState} {G : Ghost} (hL : LInv P H W c G s) (hS : Shared H W G s) {a : Addr} {o : Obj} (ho : H[a]? = some o) (hok : ObjOk c.env o)
    {d i p : Addr} {shape : List Nat} (hv : o.val = .sparse d i p shape) (hlen : shape.length = 2) {fuel : Nat} (ih : ChildLoads P H W rk c fuel a)
    {ls : List (PyStr × NodeId)} (hk : Kids base H c.store W ls [.ok ⟨ps "data", .addr d, []⟩, .ok ⟨ps "indices", .addr i, []⟩, .ok ⟨ps "indptr", .addr p, []⟩,
        .ok ⟨ps "shape", .nest .tuple [shape.length] (shape.map fun (n : Nat) => .obj ⟨.int, .int n⟩), []⟩]) :
    ∃ x G2 s2, (do
      let sub ← M.foldEach (fun sub (p : PyStr × NodeId) => loadNode c fuel sub p.1 p.2) (.sparse o.cls none none none none) (c.order ls)
      contConvert c sub : LM Addr) s = (.ok x, s2) ∧ BodyOk P H W rk c s G a x G2 s2 := by
  have hlv := hok.live
  have hsp := hh.good.sparse a o _ _ _ _ ho hv
  have hrk := hh.ranked a o ho
  obtain ⟨cl, val⟩ := o
  simp only at hv; subst hv
  have hcl : cl = .csr ∨ cl = .csc ∨ cl = .bsr := by cases cl <;> simp [ObjOk, NativeOk, UserOk] at hok <;> simp
  obtain ⟨cont', G1, s1, f1, f2, f3, f4, f5, f6, ⟨d', i', p', sh', rfl⟩, f8⟩ := load_named hh hL hS ih
    (sbs := [⟨ps "data", .addr d, []⟩, ⟨ps "indices", .addr i, []⟩, ⟨ps "indptr", .addr p, []⟩,
        ⟨ps "shape", .nest .tuple [shape.length] (shape.map fun (n : Nat) => .obj ⟨.int, .int n⟩), []⟩]) hk (by simp only [List.map_cons, List.map_nil]; decide)
    (by
      intro sb hsb b hb
      simp only [List.mem_cons, List.not_mem_nil, or_false] at hsb
      rcases hsb with rfl | rfl | rfl | rfl
      · rw [show b = d from hb]; exact hrk d (by simp [Val.children])
      · rw [show b = i from hb]; exact hrk i (by simp [Val.children])
      · rw [show b = p from hb]; exact hrk p (by simp [Val.children])
      · refine hh.nests a b _ _ _ _ ho rfl ⟨?_, .inr ⟨rfl, by simp [hlen], by simp⟩⟩ hb
        rw [show (shape.map fun (n : Nat) => Leaf.obj ⟨.int, .int n⟩) = (shape.map fun (n : Nat) => (⟨.int, .int n⟩ : Obj)).map Leaf.obj by simp]
        refine .objs (by simp) ?_ (by simp [shSize])
        intro o ho
        simp only [List.mem_map] at ho
        obtain ⟨n, hn, rfl⟩ := ho
        exact .dim hn)
    (form := fun cont => ∃ d i p sh, cont = .sparse cl d i p sh) (gets := fun cont n => match cont with
      | .sparse _ d i p sh => if n = ps "data" then d else if n = ps "indices" then i else if n = ps "indptr" then p else if n = ps "shape" then sh else none
      | _ => none)
    (by
      intro sb hsb
      simp only [List.mem_cons, List.not_mem_nil, or_false] at hsb
      rintro cont ⟨d, i, p, sh, rfl⟩ x at' s h
      have n1 : ps "indices" ≠ ps "data" := by decide
      have n2 : ps "indptr" ≠ ps "data" := by decide
      have n3 : ps "indptr" ≠ ps "indices" := by decide
      have n4 : ps "shape" ≠ ps "data" := by decide
      have n5 : ps "shape" ≠ ps "indices" := by decide
      have n6 : ps "shape" ≠ ps "indptr" := by decide
      rcases hsb with rfl | rfl | rfl | rfl
      · refine ⟨.sparse cl (some x) i p sh, by simp [contAppend, sparseAppend], ⟨_, _, _, _, rfl⟩, by simp, fun n hn => by simp [hn]⟩
      · refine ⟨.sparse cl d (some x) p sh, by simp [contAppend, sparseAppend, n1], ⟨_, _, _, _, rfl⟩, by simp [n1], fun n hn => by simp [hn]⟩
      · refine ⟨.sparse cl d i (some x) sh, by simp [contAppend, sparseAppend, n2, n3], ⟨_, _, _, _, rfl⟩, by simp [n2, n3], fun n hn => by simp [hn]⟩
      · refine ⟨.sparse cl d i p (some x), by simp [contAppend, sparseAppend, n4, n5, n6], ⟨_, _, _, _, rfl⟩, by simp [n4, n5, n6], fun n hn => by simp [hn]⟩)
    (cont := .sparse cl none none none none) ⟨_, _, _, _, rfl⟩
  have n1 : ps "indices" ≠ ps "data" := by decide
  have n2 : ps "indptr" ≠ ps "data" := by decide
  have n3 : ps "indptr" ≠ ps "indices" := by decide
  have n4 : ps "shape" ≠ ps "data" := by decide
  have n5 : ps "shape" ≠ ps "indices" := by decide
  have n6 : ps "shape" ≠ ps "indptr" := by decide
  obtain ⟨xd, bd, d1, d2, d3⟩ := f8 ⟨ps "data", .addr d, []⟩ (by simp)
  obtain ⟨xi, bi, i1, i2, i3⟩ := f8 ⟨ps "indices", .addr i, []⟩ (by simp)
  obtain ⟨xp, bp, p1, p2, p3⟩ := f8 ⟨ps "indptr", .addr p, []⟩ (by simp)
  obtain ⟨xs, bs, s1', s2', s3'⟩ := f8 _ (List.mem_cons_of_mem _ (List.mem_cons_of_mem _ (List.mem_cons_of_mem _ (List.mem_cons_self ..))))
  simp only [if_true, n1, n2, n3, n4, n5, n6, if_false] at d1 i1 p1 s1'
  subst d1 i1 p1 s1'
  rw [show bd = d from d3] at d2
  rw [show bi = i from i3] at i2
  rw [show bp = p from p3] at p2
  have hshape := f2.shape s2' s3'
  have hnum : ∀ x y, G1.R x y → y ∈ [d, i, p] → isNumArr s1.heap x = true := by
    intro x y hR hy
    obtain ⟨t, sh, l, hy⟩ := hsp y hy
    simp [isNumArr, f2.atom hR hy rfl rfl]
  rw [M.bind_of_ok f1]
  obtain ⟨r, G2, s2, h1, h2⟩ := BodyOk.alloc (rk := rk) (s := s) f2 f3 f4 f5 f6 ho hlv (by simp [unitObj]) (o' := ⟨cl, .sparse xd xi xp shape⟩) rfl (.sparse d2 i2 p2)
  refine ⟨r, G2, s2, ?_, h2⟩
  rw [← h1]
  simp only [contConvert, sparseConvert]
  rw [M.bind_of_ok (M.get_apply s1)]
  simp only [hshape, hnum _ _ d2 (by simp), hnum _ _ i2 (by simp), hnum _ _ p2 (by simp), hlen]
  rw [if_pos (by rcases hcl with rfl | rfl | rfl <;> simp)]

theorem importable_of_ok {env : Env} {o : Obj} (h : ObjOk env o) : clsImportable env o.cls = true := by
  obtain ⟨cl, val⟩ := o
  cases cl <;> first | rfl | exact h.1

theorem load_pickled {s : LState} {G : Ghost} (hL : LInv P H W c G s) (hS : Shared H W G s) {a : Addr} {o : Obj} (ho : H[a]? = some o)
    (hok : ObjOk c.env o) {st : Nat} (hv : o.val = .opaque st true) {attrs : Attrs} :
    ∃ x G2 s2, loadPickled c.env (.pickleObj o.cls st) attrs s = (.ok x, s2) ∧ BodyOk P H W rk c s G a x G2 s2 := by
  obtain ⟨x, G2, s2, h1, h2⟩ := BodyOk.atom (rk := rk) hL hS ho hok.live (by rw [hv]; rfl)
  refine ⟨x, G2, s2, ?_, h2⟩
  obtain ⟨cl, val⟩ := o
  simp only at hv; subst hv
  rw [← h1]
  simp only [loadPickled, importable_of_ok hok, if_true]

/-! ### the body of a node -/

/-- the container of a group -/
theorem expected_cont (env : Env) {o : Obj} (hok : ObjOk env o) :
    ((∃ items, o.val = .seq items) → (expected env o.cls).2.fn = .listlike → ∃ p f, stdBase (expected env o.cls).2.base = some (p, f, some .listLike)) ∧
    ((∃ items, o.val = .set items) → ∃ p f, stdBase (expected env o.cls).2.base = some (p, f, some .setLike)) ∧
    ((∃ es, o.val = .dict es) → ∃ p f, stdBase (expected env o.cls).2.base = some (p, f, some .dictLike)) ∧
    ((∃ w sh l, o.val = .sarr w sh l) ∨ (∃ sh l, o.val = .oarr sh l) → ∃ p f, stdBase (expected env o.cls).2.base = some (p, f, some .ndarrayLike)) ∧
    ((∃ d sh l m, o.val = .masked d sh l m) → ∃ p f, stdBase (expected env o.cls).2.base = some (p, f, some .ndmasked)) ∧
    ((∃ d i p sh, o.val = .sparse d i p sh) → ∃ p f, stdBase (expected env o.cls).2.base = some (p, f, some .sparse)) := by
  obtain ⟨cl, val⟩ := o
  refine ⟨?_, ?_, ?_, ?_, ?_, ?_⟩
  · rintro ⟨items, hv⟩ _
    simp only at hv; subst hv
    cases cl <;> simp [ObjOk, NativeOk, UserOk] at hok
    · exact ⟨_, _, rfl⟩
    · exact ⟨_, _, rfl⟩
    · simp only []
      rcases hok.2.1 with h | h <;> rw [h] <;> exact ⟨_, _, rfl⟩
  · rintro ⟨items, hv⟩
    simp only at hv; subst hv
    cases cl <;> simp [ObjOk, NativeOk, UserOk] at hok
    · exact ⟨_, _, rfl⟩
    · simp only []; rw [hok.2.1]; exact ⟨_, _, rfl⟩
  · rintro ⟨items, hv⟩
    simp only at hv; subst hv
    cases cl <;> simp [ObjOk, NativeOk, UserOk] at hok
    · exact ⟨_, _, rfl⟩
    · simp only []; rw [hok.2.1]; exact ⟨_, _, rfl⟩
  · rintro (⟨w, sh, l, hv⟩ | ⟨sh, l, hv⟩)
    all_goals (simp only at hv; subst hv; cases cl <;> simp [ObjOk, NativeOk, UserOk] at hok; exact ⟨_, _, rfl⟩)
  · rintro ⟨d, sh, l, m, hv⟩
    simp only at hv; subst hv
    cases cl <;> simp [ObjOk, NativeOk, UserOk] at hok
    exact ⟨_, _, rfl⟩
  · rintro ⟨d, i, p, sh, hv⟩
    simp only at hv; subst hv
    cases cl <;> simp [ObjOk, NativeOk, UserOk] at hok <;> exact ⟨_, _, rfl⟩

theorem expected_fst (env : Env) {o : Obj} (h : (expected env o.cls).2.fn ≠ .pickled) : (expected env o.cls).1 = o.cls := by
  by_cases hc : (expected env o.cls).1 = .object
  · exact absurd (by rw [expected_object hc]) h
  · exact expected_cls _ _ hc

/-- data or links of a node -/
def HasBody (base : Nat) (H : Heap) (S : Store) (W : Rel) (nd : Node) (od : Option Data) (subs : Subs) : Prop :=
  match od with
  | some d => nd.body = .dset d
  | none => ∃ ls, nd.body = .group ls ∧ Kids base H S W ls subs

theorem none_obj {env : Env} {o : Obj} (hok : ObjOk env o) (h : (expected env o.cls).2.fn = .none) : o = ⟨.noneType, .none⟩ := by
  have hb : (expected env o.cls).2.base = "None" := by
    unfold expected at h ⊢
    split
    · next e he =>
      rw [he] at h
      obtain ⟨k, p, hs⟩ := firstStd_mem he
      simp only at h ⊢
      cases k <;> simp [stdReg] at hs <;> obtain ⟨rfl, rfl⟩ := hs <;> simp_all
    · next he => rw [he] at h; simp at h
  obtain ⟨cl, val⟩ := o
  simp only at h hb
  cases cl with
  | user k =>
    cases val <;> simp [ObjOk, UserOk] at hok
    case «opaque» => rw [expected_object hok.2] at h; simp at h
    all_goals (rw [hb] at hok; simp at hok)
  | noneType => cases val <;> simp [ObjOk, NativeOk] at hok; rfl
  | _ => simp [expected, firstStd, Cls.mro, stdReg] at h

theorem oarr_len {env : Env} {o : Obj} (hok : ObjOk env o) {n : Nat} {l : List Addr} (h : o.val = .oarr [n] l) : n ≠ 0 ∧ l.length = n := by
  obtain ⟨cl, val⟩ := o
  simp only at h; subst h
  cases cl <;> simp [ObjOk, NativeOk, UserOk, shSize] at hok
  exact hok

theorem RowsOf.ne_zero {env : Env} {o : Obj} (hok : ObjOk env o) {n : Nat} {sh : List Nat} {ls : List Leaf} {dt : AttrVal} (h : RowsOf o n sh ls dt) : n ≠ 0 := by
  obtain ⟨cl, val⟩ := o
  cases h with
  | str h => simp only at h; subst h; cases cl <;> simp [ObjOk, NativeOk, UserOk, sarrOk] at hok; exact hok.1.1.2.1
  | obj h => simp only at h; subst h; cases cl <;> simp [ObjOk, NativeOk, UserOk] at hok; exact hok.1.1

theorem memo_of_identity {env : Env} {o : Obj} (hok : ObjOk env o) {at' od subs} (hd : Head env H (expected env o.cls).2.fn o at' od subs)
    (hi : o.val.hasIdentity = true) : (expected env o.cls).2.memoise = true := by
  cases hm : (expected env o.cls).2.memoise with
  | true => rfl
  | false =>
    exfalso
    rcases expected_memo env o.cls hm with h | h | h | h
    · rw [h] at hd
      cases hd with
      | intBig h1 => rw [h1] at hi; simp [Val.hasIdentity] at hi
      | int h1 => rw [h1] at hi; simp [Val.hasIdentity] at hi
      | bool h1 => rw [h1] at hi; simp [Val.hasIdentity] at hi
      | float h1 => rw [h1] at hi; simp [Val.hasIdentity] at hi
      | cplx h1 => rw [h1] at hi; simp [Val.hasIdentity] at hi
    · rw [none_obj hok h] at hi; simp [Val.hasIdentity] at hi
    · rw [h] at hd
      cases hd with
      | np h1 => rw [h1] at hi; simp [Val.hasIdentity] at hi
    · rw [h] at hd; cases hd

/-- the body of a node represents a copy of the object -/
theorem body_ok (hh : LHyp P base H W rk c) {s : LState} {G : Ghost} (hL : LInv P H W c G s) (hS : Shared H W G s) {a : Addr} {o : Obj}
    (ho : H[a]? = some o) (hok : ObjOk c.env o) {fuel : Nat} (ih : ChildLoads P H W rk c fuel a) {nd : Node} {od : Option Data} {subs : Subs}
    (hd : Head c.env H (expected c.env o.cls).2.fn o nd.attrs od subs)
    (hb : HasBody base H c.store W nd od subs)
    (hready : BaseReady s.reg (expected c.env o.cls).2.base) :
    ∃ x G2 s2, loadBody c (loadNode c fuel) nd ⟨(expected c.env o.cls).1, (expected c.env o.cls).2.base, (expected c.env o.cls).2.base, nd.isGroup⟩
        (expected c.env o.cls).1 s = (.ok x, s2) ∧ BodyOk P H W rk c s G a x G2 s2 := by
  have hcont := expected_cont c.env hok
  -- a dataset
  have leaf : ∀ {d : Data} {f : LoadFn}, nd.body = .dset d → fnLoad (expected c.env o.cls).2.fn = some f →
      (∃ x G2 s2, loadData c f d nd.attrs (expected c.env o.cls).2.base (expected c.env o.cls).1 s = (.ok x, s2) ∧ BodyOk P H W rk c s G a x G2 s2) →
      ∃ x G2 s2, loadBody c (loadNode c fuel) nd ⟨(expected c.env o.cls).1, (expected c.env o.cls).2.base, (expected c.env o.cls).2.base, nd.isGroup⟩
        (expected c.env o.cls).1 s = (.ok x, s2) ∧ BodyOk P H W rk c s G a x G2 s2 := by
    intro d f hbd hf ⟨x, G2, s2, h1, h2⟩
    refine ⟨x, G2, s2, ?_, h2⟩
    obtain ⟨p, k, hs⟩ := expected_load c.env o.cls hf
    unfold loadBody
    rw [M.bind_of_ok (M.get_apply s)]
    simp only [Node.isGroup, hbd, hready.loadFn hL.reg hh.mgr hs]
    exact h1
  -- a group
  have grp : ∀ {ls : List (PyStr × NodeId)} {k : ContK} {p f} {cont : Cont}, nd.body = .group ls → stdBase (expected c.env o.cls).2.base = some (p, f, some k) →
      mkCont k nd.attrs (expected c.env o.cls).2.base (expected c.env o.cls).1 s = (.ok cont, s) → (∀ l, cont ≠ .expand l) →
      (∃ x G2 s2, (do
        let sub ← M.foldEach (fun sub (p : PyStr × NodeId) => loadNode c fuel sub p.1 p.2) cont (c.order ls)
        contConvert c sub : LM Addr) s = (.ok x, s2) ∧ BodyOk P H W rk c s G a x G2 s2) →
      ∃ x G2 s2, loadBody c (loadNode c fuel) nd ⟨(expected c.env o.cls).1, (expected c.env o.cls).2.base, (expected c.env o.cls).2.base, nd.isGroup⟩
        (expected c.env o.cls).1 s = (.ok x, s2) ∧ BodyOk P H W rk c s G a x G2 s2 := by
    intro ls k p f cont hbd hs hm hne ⟨x, G2, s2, h1, h2⟩
    refine ⟨x, G2, s2, ?_, h2⟩
    unfold loadBody
    rw [M.bind_of_ok (M.get_apply s)]
    simp only [Node.isGroup, hbd, hready.container hL.reg hh.mgr hs, if_true, Option.getD_some]
    rw [M.bind_of_ok hm, M.bind_of_ok (a := c.order ls) (s1 := s)]
    · exact h1
    · unfold contFilter
      rw [hbd]
      cases cont <;> first | rfl | exact absurd rfl (hne _)
  generalize hfn : (expected c.env o.cls).2.fn = fn at hd
  cases hd with
  | intBig h1 h2 h3 =>
    refine leaf (f := .scalar) hb (by rw [hfn]; rfl) ?_
    rw [expected_fst c.env (by rw [hfn]; simp)]
    exact load_int hL hS ho hok h1 (.inr ⟨rfl, h2, h3⟩)
  | int h1 h2 =>
    refine leaf (f := .scalar) hb (by rw [hfn]; rfl) ?_
    rw [expected_fst c.env (by rw [hfn]; simp)]
    exact load_int hL hS ho hok h1 (.inl rfl)
  | bool h1 =>
    refine leaf (f := .scalar) hb (by rw [hfn]; rfl) ?_
    rw [expected_fst c.env (by rw [hfn]; simp)]
    exact load_bool hL hS ho hok h1
  | float h1 =>
    refine leaf (f := .scalar) hb (by rw [hfn]; rfl) ?_
    rw [expected_fst c.env (by rw [hfn]; simp)]
    exact load_float hL hS ho hok h1
  | cplx h1 =>
    refine leaf (f := .scalar) hb (by rw [hfn]; rfl) ?_
    rw [expected_fst c.env (by rw [hfn]; simp)]
    exact load_cplx hL hS ho hok h1
  | none =>
    refine leaf (f := .none) hb (by rw [hfn]; rfl) ?_
    have := none_obj hok hfn
    subst this
    exact BodyOk.atom (rk := rk) hL hS ho rfl rfl
  | str h1 h2 h3 =>
    refine leaf (f := .list) hb (by rw [hfn]; rfl) ?_
    rw [expected_fst c.env (by rw [hfn]; simp)]
    exact load_str hL hS ho hok h1 h2 h3
  | bytes h1 h2 =>
    refine leaf (f := .list) hb (by rw [hfn]; rfl) ?_
    rw [expected_fst c.env (by rw [hfn]; simp)]
    exact load_bytes hL hS ho hok h1 h2
  | seqNil h1 =>
    refine leaf (f := .list) hb (by rw [hfn]; rfl) ?_
    rw [expected_fst c.env (by rw [hfn]; simp)]
    exact load_seqNil (t := "int") (attrs := nd.attrs) hL hS ho hok h1
  | setNil h1 =>
    refine leaf (f := .list) hb (by rw [hfn]; rfl) ?_
    rw [expected_fst c.env (by rw [hfn]; simp)]
    exact load_setVec (d := .int64) (attrs := nd.attrs) hL hS ho hok h1 (hh.good.sets a o _ ho h1 hok.live).1 (hh.hashed ho h1 hok.live) (hh.good.nums a o _ ho h1 hok.live).1 .nil (.inl rfl)
  | @seqVec _ _ _ d _ h1 h2 h3 h4 =>
    refine leaf (f := .list) hb (by rw [hfn]; rfl) ?_
    rw [expected_fst c.env (by rw [hfn]; simp)]
    exact load_seqVec (d := d) (attrs := nd.attrs) hL hS ho hok h1 h2 h3 h4
  | @setVec _ _ _ d _ h1 h2 h3 h4 =>
    refine leaf (f := .list) hb (by rw [hfn]; rfl) ?_
    rw [expected_fst c.env (by rw [hfn]; simp)]
    exact load_setVec (d := d) (attrs := nd.attrs) hL hS ho hok h1 (hh.good.sets a o _ ho h1 hok.live).1 (hh.hashed ho h1 hok.live) (hh.good.nums a o _ ho h1 hok.live).1 (cast_items h3) (.inr (numDt_of h4))
  | seqItems h1 h2 hnn h3 =>
    obtain ⟨ls, hb1, hb2⟩ := hb
    obtain ⟨p, f, hs⟩ := hcont.1 ⟨_, h1⟩ hfn
    refine grp hb1 hs (by simp only [mkCont, h3]; rfl) (by simp) ?_
    rw [expected_fst c.env (by rw [hfn]; simp)]
    simp only [Int.toNat_natCast]
    exact load_seqItems hh hL hS ho hok h1 h2 hnn ih hb2
  | setItems h1 h2 hnn =>
    obtain ⟨ls, hb1, hb2⟩ := hb
    obtain ⟨p, f, hs⟩ := hcont.2.1 ⟨_, h1⟩
    refine grp hb1 hs rfl (by simp) ?_
    rw [expected_fst c.env (by rw [hfn]; simp)]
    exact load_setItems hh hL hS ho hok h1 hnn ih hb2
  | dict h1 =>
    obtain ⟨ls, hb1, hb2⟩ := hb
    obtain ⟨p, f, hs⟩ := hcont.2.2.1 ⟨_, h1⟩
    refine grp hb1 hs rfl (by simp) ?_
    rw [expected_fst c.env (by rw [hfn]; simp)]
    exact load_dict hh hL hS ho hok h1 ih hb2
  | np h1 h2 =>
    exact leaf (f := .npScalar) hb (by rw [hfn]; rfl) (load_np hL hS ho hok h1 h2)
  | arr h1 h2 =>
    refine leaf (f := .ndarray) hb (by rw [hfn]; rfl) ?_
    rw [expected_fst c.env (by rw [hfn]; simp)]
    exact load_arr hL hS ho hok h1 h2
  | sstr h1 h2 h3 =>
    exact leaf (f := .ndarray) hb (by rw [hfn]; rfl) (load_sstr hL hS ho hok h1 h2 h3)
  | rowsNil h1 h2 => exact absurd rfl (h1.ne_zero hok)
  | rows h1 h2 h3 h4 h5 =>
    obtain ⟨ls, hb1, hb2⟩ := hb
    obtain ⟨p, f, hs⟩ := hcont.2.2.2.1 (by cases h1 with | str h => exact .inl ⟨_, _, _, h⟩ | obj h => exact .inr ⟨_, _, h⟩)
    refine grp hb1 hs (by simp only [mkCont, h5]; rfl) (by simp) ?_
    rw [expected_fst c.env (by rw [hfn]; simp)]
    simp only [Int.toNat_natCast]
    cases h1 with
    | str h => exact load_strs hh hL hS ho hok h ih hb2 h4
    | obj h => exact load_objs hh hL hS ho hok h ih hb2 h4
  | oseq h1 h2 h3 =>
    cases h1 with
    | zero h4 h5 h6 =>
      obtain ⟨q, e1, e2⟩ := (hh.good.oarrs a o _ _ ho h4).1.1 _ (List.mem_singleton.2 rfl)
      rw [h5] at e1; simp at e1; subst e1
      simp [Val.noDims] at e2
    | one h4 =>
      have hoa := hh.good.oarrs a o _ _ ho h4
      have hlen := oarr_len hok h4
      cases h3 with
      | nil h5 => rw [h5] at hlen; simp at hlen; exact absurd hlen.2.symm hlen.1
      | vec h5 h6 h7 =>
        exfalso
        obtain ⟨x, hx, hn⟩ := hoa.1.2 _ rfl 0 (by have := List.length_pos_iff.2 h5; omega)
        exact castItems_num h6 x (List.mem_of_mem_drop (List.mem_of_mem_take hx)) hn
      | items h5 h6 h7 =>
        obtain ⟨ls, hb1, hb2⟩ := hb
        obtain ⟨p, f, hs⟩ := hcont.2.2.2.1 (.inr ⟨_, _, h4⟩)
        refine grp hb1 hs (by simp only [mkCont, h7]; rfl) (by simp) ?_
        rw [expected_fst c.env (by rw [hfn]; simp)]
        simp only [Int.toNat_natCast]
        exact load_oseq hh hL hS ho hok h4 ih hb2 h2
  | oone h1 h2 h3 h4 h5 =>
    obtain ⟨ls, hb1, hb2⟩ := hb
    obtain ⟨p, f, hs⟩ := hcont.2.2.2.1 (.inr ⟨_, _, h1⟩)
    refine grp hb1 hs (by simp only [mkCont, h5]; rfl) (by simp) ?_
    rw [expected_fst c.env (by rw [hfn]; simp)]
    exact load_oone hh hL hS ho hok h1 ih hb2 h4
  | masked h1 h2 =>
    obtain ⟨ls, hb1, hb2⟩ := hb
    obtain ⟨p, f, hs⟩ := hcont.2.2.2.2.1 ⟨_, _, _, _, h1⟩
    refine grp hb1 hs rfl (by simp) ?_
    rw [expected_fst c.env (by rw [hfn]; simp)]
    exact load_masked hh hL hS ho hok h1 ih hb2 h2
  | sparse h1 h2 =>
    obtain ⟨ls, hb1, hb2⟩ := hb
    obtain ⟨p, f, hs⟩ := hcont.2.2.2.2.2 ⟨_, _, _, _, h1⟩
    refine grp hb1 hs rfl (by simp) ?_
    rw [expected_fst c.env (by rw [hfn]; simp)]
    exact load_sparse hh hL hS ho hok h1 h2 ih hb2
  | pickled h1 =>
    exact leaf (f := .pickled) hb (by rw [hfn]; rfl) (load_pickled (attrs := nd.attrs) hL hS ho hok h1)

/-! ### a node -/

theorem goodCls_object (P : Nat → Prop) (env : Env) : GoodCls P env .object := by
  intro k hk
  simp [Cls.mro] at hk
  subst hk; exact ⟨trivial, .inl ⟨"builtins", rfl⟩⟩

theorem goodCls_nodeRef (P : Nat → Prop) (env : Env) : GoodCls P env .nodeRef := by
  intro k hk
  simp [Cls.mro] at hk
  rcases hk with rfl | rfl
  · exact ⟨trivial, .inr rfl⟩
  · exact ⟨trivial, .inl ⟨"builtins", rfl⟩⟩

/-- class and loader of a node are found -/
theorem loadObj_start (hh : LHyp P base H W rk c) {s : LState} {G : Ghost} (hL : LInv P H W c G s) {a : Addr} {o : Obj}
    (ho : H[a]? = some o) {nd : Node} (ht : TypeOk c.env c.store o.cls nd.attrs)
    (hb : (expected c.env o.cls).1 = .object → ∃ cl st, nd.body = .dset (.pickleObj cl st))
    (hi : (expected c.env o.cls).1 ≠ .object → clsImportable c.env o.cls = true) (rec : Cont → PyStr → NodeId → LM Cont) :
    ∃ s2, LInv P H W c G s2 ∧ s2.heap = s.heap ∧ s2.memo = s.memo ∧ BaseReady s2.reg (expected c.env o.cls).2.base ∧
      loadObj c rec nd s = (do
        let a ← loadBody c rec nd ⟨(expected c.env o.cls).1, (expected c.env o.cls).2.base, (expected c.env o.cls).2.base, nd.isGroup⟩
          (expected c.env o.cls).1
        pure (a, (expected c.env o.cls).2.memoise) : LM (Addr × Bool)) s2 := by
  have hg := (hh.good.cls a o ho)
  have step : ∀ {cl : Cls} {s1 : LState}, GoodCls P c.env cl → expected c.env cl = expected c.env o.cls → LInv P H W c G s1 →
      s1.heap = s.heap → s1.memo = s.memo →
      resolveType c nd s = (.ok ⟨(expected c.env o.cls).1, (expected c.env o.cls).2.base, (expected c.env o.cls).2.base, nd.isGroup⟩, s1) →
      cl = (expected c.env o.cls).1 →
      ∃ s2, LInv P H W c G s2 ∧ s2.heap = s.heap ∧ s2.memo = s.memo ∧ BaseReady s2.reg (expected c.env o.cls).2.base ∧
      loadObj c rec nd s = (do
        let a ← loadBody c rec nd ⟨(expected c.env o.cls).1, (expected c.env o.cls).2.base, (expected c.env o.cls).2.base, nd.isGroup⟩
          (expected c.env o.cls).1
        pure (a, (expected c.env o.cls).2.memoise) : LM (Addr × Bool)) s2 := by
    intro cl s1 hgc hex hL1 hh1 hm1 hres hcl
    obtain ⟨r', e1, e2, e3, e4⟩ := loadLoader_spec (m := c.mgr) hh.env hh.mgr.dumps hgc (some (expected c.env o.cls).2.base) hL1.reg
    refine ⟨{ s1 with reg := r' }, { hL1 with reg := e2 }, hh1, hm1, by rw [← hex]; exact e4, ?_⟩
    unfold loadObj
    rw [M.bind_of_ok hres]
    dsimp only
    rw [← hcl, M.bind_of_ok (a := expected c.env o.cls) (s1 := { s1 with reg := r' })]
    · rw [← hcl]
    · unfold lOnReg; rw [e1, hex]
  rcases ht with ⟨h1, h2⟩ | ⟨h1, e, h2, h3⟩
  · have hexp := expected_object h1
    obtain ⟨cl, st, hbd⟩ := hb h1
    refine step (cl := .object) (s1 := s) (goodCls_object P c.env) (by rw [hexp]; rfl) hL rfl rfl ?_ h1.symm
    unfold resolveType
    rw [h2]
    simp only [hbd, hexp, Node.isGroup]
    rfl
  · have hc := expected_cls _ _ h1
    obtain ⟨s1, r1, r2, r3, r4⟩ := resolve_ok hL h2 h3
    rw [if_pos (hi h1)] at r1
    exact step (cl := o.cls) (s1 := s1) hg rfl r2 r3 r4 (by rw [r1, hc]) hc.symm

/-! ### instances of missing classes -/

theorem get?_filter_ne (at' : Attrs) (q : String × AttrVal → Bool) {k : String} (hq : ∀ v, q (k, v) = true) :
    Assoc.get? (at'.filter q) k = Assoc.get? at' k := by
  induction at' with
  | nil => rfl
  | cons p at' ih =>
    obtain ⟨k', v⟩ := p
    by_cases hk : k' = k
    · subst hk
      rw [List.filter_cons_of_pos (hq v)]
      simp [Assoc.get?]
    · by_cases hf : q (k', v) = true
      · rw [List.filter_cons_of_pos hf]
        simp only [Assoc.get?, hk, if_false, ih]
      · rw [List.filter_cons_of_neg hf]
        simp only [Assoc.get?, hk, if_false, ih]

theorem get?_filter_drop (at' : Attrs) (q : String × AttrVal → Bool) {k : String} (hq : ∀ v, q (k, v) = false) :
    Assoc.get? (at'.filter q) k = none := by
  induction at' with
  | nil => rfl
  | cons p at' ih =>
    obtain ⟨k', v⟩ := p
    by_cases hf : q (k', v) = true
    · rw [List.filter_cons_of_pos hf]
      have hk : k' ≠ k := by rintro rfl; rw [hq v] at hf; simp at hf
      simp only [Assoc.get?, hk, if_false, ih]
    · rw [List.filter_cons_of_neg hf]; exact ih

/-- attributes of a recovered dataset -/
theorem recAttrs_data (base : String) (at' : Attrs) :
    RecAttrs base at' ((Assoc.put (at'.filter fun p => p.1 ≠ "base_type") "base_type" (.bytes base)).filter fun p => p.1 ≠ "type") := by
  refine ⟨?_, get?_filter_drop _ _ (by simp), ?_⟩
  · rw [get?_filter_ne _ _ (by simp)]; exact Assoc.get?_put_self _ _ _
  · intro k h1 h2
    rw [get?_filter_ne _ _ (by simpa using h1), Assoc.get?_put_ne _ _ (Ne.symm h2), get?_filter_ne _ _ (by simpa using h2)]

/-- attributes of a recovered group -/
theorem recAttrs_group (base : String) (at' : Attrs) :
    RecAttrs base at' (Assoc.put (at'.filter fun p => p.1 ≠ "type" && p.1 ≠ "base_type") "base_type" (.bytes base)) := by
  refine ⟨Assoc.get?_put_self _ _ _, ?_, ?_⟩
  · rw [Assoc.get?_put_ne _ _ (by decide)]; exact get?_filter_drop _ _ (by simp)
  · intro k h1 h2
    rw [Assoc.get?_put_ne _ _ (Ne.symm h2), get?_filter_ne _ _ (by simp [h1, h2])]

/-- the loader of `!recover!` is there from the start -/
theorem loadLoader_recover {m : Manager} {env : Env} {r : Registry} (h : RegInv P r) (hm : m.Ok) :
    loadLoader env m .recover (some "!recover!") r = (.ok (.recover, ⟨.notDumpable, "!recover!", true⟩), r) := by
  have ht : m.typeEntry r .recover = none := by rw [h.typeEntry hm.dumps (c := .recover) trivial]; rfl
  have hf : m.loadFn r "!recover!" = some .recover := h.loadFn hm (b := "!recover!") rfl rfl
  have hmro : Cls.mro env.u .recover = [.recover, .object] := rfl
  have ho : Cls.origin env.u .recover = .core := rfl
  unfold loadLoader
  rw [hmro]
  simp only [loadLoaderAux]
  rw [M.bind_of_ok (M.get_apply r)]
  simp only [ht, ho, hf, Option.isSome_some, Bool.true_or, if_true]
  rfl

/-- the class of the node is missing -/
theorem loadObj_recover (hh : LHyp P base H W rk c) {s : LState} {G : Ghost} (hL : LInv P H W c G s) {o : Obj}
    {nd : Node} (ht : TypeOk c.env c.store o.cls nd.attrs) (h1 : (expected c.env o.cls).1 ≠ .object) (hl : o.lost c.env = true)
    (rec : Cont → PyStr → NodeId → LM Cont) :
    ∃ s2, LInv P H W c G s2 ∧ s2.heap = s.heap ∧ s2.memo = s.memo ∧
      loadObj c rec nd s = (do
        let a ← loadBody c rec nd ⟨.recover, "!recover!", (expected c.env o.cls).2.base, nd.isGroup⟩ .recover
        pure (a, true) : LM (Addr × Bool)) s2 := by
  rcases ht with ⟨h2, _⟩ | ⟨_, e, h2, h3⟩
  · exact absurd h2 h1
  · obtain ⟨s1, r1, r2, r3, r4⟩ := resolve_ok hL h2 h3
    rw [lost_iff] at hl
    rw [if_neg (by simpa using hl)] at r1
    refine ⟨s1, r2, r3, r4, ?_⟩
    unfold loadObj
    rw [M.bind_of_ok r1]
    dsimp only
    rw [M.bind_of_ok (a := (.recover, ⟨.notDumpable, "!recover!", true⟩)) (s1 := s1)]
    unfold lOnReg
    rw [loadLoader_recover r2.reg hh.mgr]

theorem lost_ne_unit {env : Env} {o : Obj} (hl : o.lost env = true) : o ≠ unitObj := by
  rintro rfl
  simp [Obj.lost, unitObj] at hl

theorem listSubs_mem' {i : Nat} {items : List Addr} {sb : Sub} (h : Except.ok sb ∈ listSubs i items) :
    ∃ j a, sb = ⟨dataName j, .addr a, [("item_index", .int j)]⟩ ∧ a ∈ items := by
  induction items generalizing i with
  | nil => simp [listSubs] at h
  | cons a as ih =>
    simp only [listSubs, List.mem_cons, Except.ok.injEq] at h
    rcases h with h | h
    · exact ⟨i, a, h, by simp⟩
    · obtain ⟨j, b, h1, h2⟩ := ih h
      exact ⟨j, b, h1, by simp [h2]⟩

theorem recoverData_ok {d : Data} (hd : ∀ t, d ≠ .null t) (attrs : Attrs) :
    recoverData d attrs = lAlloc ⟨.recData, .recData d (attrs.filter fun p => p.1 ≠ "type")⟩ := by
  cases d <;> first | rfl | exact absurd rfl (hd _)

/-- an instance of a missing class that was pickled -/
theorem load_pickled_lost {s : LState} {G : Ghost} (hL : LInv P H W c G s) (hS : Shared H W G s) {a : Addr} {o : Obj} (ho : H[a]? = some o)
    (hl : o.lost c.env = true) {st : Nat} (hv : o.val = .opaque st true) {attrs : Attrs} :
    ∃ x G2 s2, loadPickled c.env (.pickleObj o.cls st) attrs s = (.ok x, s2) ∧ BodyOk P H W rk c s G a x G2 s2 := by
  obtain ⟨x, G2, s2, h1, h2⟩ := BodyOk.allocOf (rk := rk) hL hS (.refl G) List.prefix_rfl (fun _ => .inl rfl) ho (lost_ne_unit hl)
    (o' := ⟨.recData, .recData (.pickleObj o.cls st) (attrs.filter fun p => p.1 ≠ "type")⟩) (.inr ⟨hl, .pickled hv rfl⟩)
  refine ⟨x, G2, s2, ?_, h2⟩
  rw [lost_iff] at hl
  rw [← h1]
  simp only [loadPickled]
  rw [if_neg (by simpa using hl)]
  rfl

/-- what the copy of an object says about whether it was recovered -/
theorem isRecovered_iff (hh : LHyp P base H W rk c) {s : LState} {G : Ghost} (hL : LInv P H W c G s) {x a : Addr} (hR : G.R x a) :
    ∃ q, H[a]? = some q ∧ isRecovered s.heap x = q.lost c.env := by
  obtain ⟨q, q', h1, h2, h3⟩ := hL.exact x a hR
  refine ⟨q, h1, ?_⟩
  unfold isRecovered
  rw [h2]
  obtain ⟨cl', v'⟩ := q'
  rcases h3 with ⟨hl, hc, hv⟩ | ⟨hl, hr⟩
  · rw [hl]
    have hok := hh.good.ok a q h1 hl
    obtain ⟨cl, v⟩ := q
    simp only at hc hv; subst hc
    cases hv with
    | atom h1 =>
      cases v' <;> first | rfl | (exfalso; cases cl' <;> simp [ObjOk, NativeOk, UserOk] at hok)
    | _ => rfl
  · rw [hl]
    cases hr with
    | pickled _ h => cases h; rfl
    | data _ _ _ h => cases h; rfl
    | group _ _ _ _ h => cases h; rfl

/-- the container of a recovered group after the kids `done` -/
def RecState (env : Env) (H : Heap) (b : String) (at' : Attrs) (done : List Kid) (cont : Cont) (G : Ghost) : Prop :=
  ∃ l, cont = .recover b at' l ∧ All2 (RecMember env H G.R) l (done.map fun k => Except.ok k.sub)

theorem RecState.mono {env b at' done cont} {G G' : Ghost} (hle : G.Le G') (h : RecState env H b at' done cont G) : RecState env H b at' done cont G' := by
  obtain ⟨l, h1, h2⟩ := h
  exact ⟨l, h1, h2.mono fun _ _ h => h.mono hle.R⟩

theorem rec_keeps (hh : LHyp P base H W rk c) {b : String} {at' : Attrs} {zs : List Kid}
    (hz : ∀ k ∈ zs, SubIn H k.sub.obj k.addr ∧ ∀ p ∈ k.sub.attrs, p.1 ≠ "type") : KeepsOn P H W c zs (RecState c.env H b at') := by
  rintro done k rest cont G s x nd hd ⟨l, rfl, hl⟩ hL hR hn hat hbt
  obtain ⟨q, hq, hrec⟩ := isRecovered_iff hh hL hR
  obtain ⟨hsub, hne⟩ := hz k (by rw [← hd]; simp)
  refine ⟨.recover b at' (l ++ [(k.sub.name, x, if isRecovered s.heap x then none else some (nd.attrs.filter fun p => p.1 ≠ "type"))]), G, s, ?_,
    hL, .refl G, rfl, List.prefix_rfl, rfl, ?_⟩
  · simp only [contAppend]
    rw [M.bind_of_ok (M.get_apply s)]
    rfl
  · refine ⟨_, rfl, ?_⟩
    rw [List.map_append]
    refine hl.append (.cons ?_ .nil)
    refine ⟨k.sub, k.addr, q, rfl, rfl, hsub, hR, hq, ?_⟩
    simp only [hrec]
    cases hlq : q.lost c.env with
    | true => exact .inl ⟨by simp, rfl⟩
    | false =>
      refine .inr ⟨_, by simp; rfl, rfl, ?_⟩
      intro p hp
      have := hne p hp
      rw [get?_filter_ne _ _ (by simpa using this)]
      exact hat p hp

/-- a group whose class is missing -/
theorem load_recGroup (hh : LHyp P base H W rk c) {s : LState} {G : Ghost} (hL : LInv P H W c G s) (hS : Shared H W G s) {a : Addr} {o : Obj}
    (ho : H[a]? = some o) (hl : o.lost c.env = true) {fuel : Nat} (ih : ChildLoads P H W rk c fuel a) {attrs : Attrs} {subs : Subs}
    (hd : Head c.env H (expected c.env o.cls).2.fn o attrs none subs)
    {ls : List (PyStr × NodeId)} (hk : Kids base H c.store W ls subs)
    (hsub : ∀ sb b, Except.ok sb ∈ subs → SubAt base H sb.obj b → SubIn H sb.obj b ∧ rk b < rk a ∧ ∀ p ∈ sb.attrs, p.1 ≠ "type") :
    ∃ x G2 s2, (do
      let sub ← M.foldEach (fun sub (p : PyStr × NodeId) => loadNode c fuel sub p.1 p.2) (.recover (expected c.env o.cls).2.base attrs []) (c.order ls)
      contConvert c sub : LM Addr) s = (.ok x, s2) ∧ BodyOk P H W rk c s G a x G2 s2 := by
  obtain ⟨zs0, z1, z2, z3⟩ := hk.zip
  obtain ⟨zs, hp, hlk⟩ := perm_map_lift Kid.link (hh.order ls) zs0 z1
  have hall : ∀ k ∈ zs, SubIn H k.sub.obj k.addr ∧ rk k.addr < rk a ∧ ∀ p ∈ k.sub.attrs, p.1 ≠ "type" := by
    intro k hk
    have hk0 := hp.mem_iff.1 hk
    refine hsub k.sub k.addr ?_ (z3 k hk0).1
    rw [← z2]
    exact List.mem_map.2 ⟨k, hk0, rfl⟩
  obtain ⟨cont', G1, s1, f1, f2, f3, f4, f5, f6, l, rfl, hms⟩ := fold_kids (I := RecState c.env H (expected c.env o.cls).2.base attrs) ih
    (fun k hk => ⟨(hall k hk).2.1, (z3 k (hp.mem_iff.1 hk)).2⟩) (fun _ _ _ _ h => RecState.mono h)
    (rec_keeps hh fun k hk => ⟨(hall k hk).1, (hall k hk).2.2⟩) zs [] (.recover (expected c.env o.cls).2.base attrs []) G s rfl
    ⟨[], rfl, .nil⟩ hL hS
  rw [← hlk, M.bind_of_ok f1]
  refine BodyOk.allocOf (rk := rk) (s := s) f2 f3 f4 f5 f6 ho (lost_ne_unit hl) (.inr ⟨hl, .group hd (recAttrs_group _ _) (z2 ▸ hp.map _) hms rfl⟩)

/-- the body of the node of an instance of a missing class -/
theorem body_recover (hh : LHyp P base H W rk c) {s : LState} {G : Ghost} (hL : LInv P H W c G s) (hS : Shared H W G s) {a : Addr} {o : Obj}
    (ho : H[a]? = some o) (hl : o.lost c.env = true) (h1 : (expected c.env o.cls).1 ≠ .object)
    {fuel : Nat} (ih : ChildLoads P H W rk c fuel a) {nd : Node} {od : Option Data} {subs : Subs}
    (hd : Head c.env H (expected c.env o.cls).2.fn o nd.attrs od subs)
    (hb : HasBody base H c.store W nd od subs) :
    ∃ x G2 s2, loadBody c (loadNode c fuel) nd ⟨.recover, "!recover!", (expected c.env o.cls).2.base, nd.isGroup⟩ .recover s = (.ok x, s2) ∧
      BodyOk P H W rk c s G a x G2 s2 := by
  have hlok := hh.good.lost a o ho hl
  have hfn : c.mgr.loadFn s.reg "!recover!" = some .recover := hL.reg.loadFn hh.mgr (b := "!recover!") rfl rfl
  have hcont : c.mgr.container s.reg "!recover!" = some .recoverGroup := hL.reg.container hh.mgr (b := "!recover!") rfl rfl
  cases od with
  | some d =>
    have hnull : ∀ t, d ≠ .null t := by
      rintro t rfl
      unfold LostOk at hlok
      generalize (expected c.env o.cls).2.fn = fn at hd hlok
      cases hd with
      | none => cases hv : o.val <;> simp [hv] at hlok; exact h1 hlok
      | seqNil h => simp [h] at hlok
      | rowsNil h => cases h <;> simp_all
      | oseq h => cases h <;> simp_all
    obtain ⟨x, G2, s2, e1, e2⟩ := BodyOk.allocOf (rk := rk) hL hS (.refl G) List.prefix_rfl (fun _ => .inl rfl) ho (lost_ne_unit hl)
      (.inr ⟨hl, .data h1 hd (recAttrs_data _ _) rfl⟩)
    refine ⟨x, G2, s2, ?_, e2⟩
    rw [← e1]
    unfold loadBody
    rw [M.bind_of_ok (M.get_apply s)]
    have hb' : nd.body = .dset d := hb
    simp only [Node.isGroup, hb', hfn, Option.getD_some, loadData]
    rw [recoverData_ok hnull]
    rfl
  | none =>
    obtain ⟨ls, hbd, hk⟩ := hb
    have hsub : ∀ sb b, Except.ok sb ∈ subs → SubAt base H sb.obj b → SubIn H sb.obj b ∧ rk b < rk a ∧ ∀ p ∈ sb.attrs, p.1 ≠ "type" := by
      intro sb b hsb hat
      have lst : ∀ items, subs = listSubs 0 items → (∀ x ∈ items, x ∈ o.val.children) → SubIn H sb.obj b ∧ rk b < rk a ∧ ∀ p ∈ sb.attrs, p.1 ≠ "type" := by
        rintro items rfl hch
        obtain ⟨j, x, rfl, hx⟩ := listSubs_mem' hsb
        simp only [SubAt] at hat; subst hat
        exact ⟨rfl, hh.ranked a o ho _ (hch _ hx), by simp⟩
      unfold LostOk at hlok
      generalize (expected c.env o.cls).2.fn = fn at hd hlok
      cases hd with
      | seqItems h => exact lst _ rfl (by rw [h]; simp [Val.children])
      | setItems h => exact lst _ rfl (by rw [h]; simp [Val.children])
      | @dict _ _ es h =>
        obtain ⟨j, k, v, hkv, hs⟩ := dictSubs_mem hsb
        obtain ⟨cl, val⟩ := o
        simp only at h; subst h
        rcases dictSub_idx hs with ⟨_, _, _, _, _, rfl⟩ | ⟨rfl, _⟩
        · simp only [SubAt] at hat; subst hat
          refine ⟨rfl, hh.ranked a _ ho _ ?_, by simp⟩
          simp only [Val.children, List.mem_flatMap]
          exact ⟨(k, b), hkv, by simp⟩
        · exact ⟨hat.2, hh.pairs a b k v cl es ho hkv hat.1 hat.2, by simp⟩
      | rows h => cases h <;> simp_all
      | oseq h => cases h <;> simp_all
      | oone h => simp_all
      | masked h => simp_all
      | sparse h => simp_all
    obtain ⟨x, G2, s2, e1, e2⟩ := load_recGroup hh hL hS ho hl ih hd hk hsub
    refine ⟨x, G2, s2, ?_, e2⟩
    rw [← e1]
    unfold loadBody
    rw [M.bind_of_ok (M.get_apply s)]
    simp only [Node.isGroup, hbd, hcont, if_true, Option.getD_some, mkCont]
    rw [M.bind_of_ok (M.pure_apply _ _), M.bind_of_ok (a := c.order ls) (s1 := s)]
    unfold contFilter
    rw [hbd]
    rfl

theorem loadFinish_false (cont : Cont) (name : PyStr) (x : Addr) (attrs : Attrs) (n : NodeId) (s : LState) :
    loadFinish c cont name x attrs n false s = contAppend c cont name x attrs s := by
  unfold loadFinish
  rw [M.bind_apply]
  rcases contAppend c cont name x attrs s with ⟨r, s1⟩
  cases r <;> rfl

/-- a node that is in the memo -/
theorem load_hit (hh : LHyp P base H W rk c) {s : LState} {G : Ghost} (hL : LInv P H W c G s) (hS : Shared H W G s) {m : NodeId} {a x : Addr}
    (hW : W m a) (hm : Assoc.get? s.memo m = some x) (fuel : Nat) : CanLoad P H W rk c (fuel + 1) G s m a := by
  obtain ⟨o, nd, od, subs, h1, h2, _⟩ := hh.nodes m a hW
  obtain ⟨a', hw', hr⟩ := hL.memo m x hm
  have := hh.uniq m a a' hW hw'; subst this
  refine ⟨x, nd, false, s, G, h2, ?_, hL, .refl G, List.prefix_rfl, hr, fun y b o hy ho hi hu => .inl (hS y b o hy ho hi hu), fun _ => .inl rfl, by simp⟩
  intro cont name
  rw [loadFinish_false]
  simp only [loadNode, h2]
  rw [M.bind_of_ok (M.get_apply s), hm]

/-- the node of an object -/
theorem load_direct (hh : LHyp P base H W rk c) {s : LState} {G : Ghost} (hL : LInv P H W c G s) (hS : Shared H W G s) {m : NodeId} {a : Addr}
    (hW : W m a) {fuel : Nat} (ih : ChildLoads P H W rk c fuel a) : CanLoad P H W rk c (fuel + 1) G s m a := by
  cases hm : Assoc.get? s.memo m with
  | some x => exact load_hit hh hL hS hW hm fuel
  | none =>
    obtain ⟨o, nd, od, subs, ho, hnd, hty, hhd, hbd⟩ := hh.nodes m a hW
    -- once the body is loaded
    have fin : ∀ {s2 s3 : LState} {x : Addr} {G3 : Ghost} {mem : Bool} {rec : LM Addr}, s2.heap = s.heap → s2.memo = s.memo →
        loadObj c (loadNode c fuel) nd s = (do let a ← rec; pure (a, mem) : LM (Addr × Bool)) s2 →
        rec s2 = (.ok x, s3) → BodyOk P H W rk c s2 G a x G3 s3 → (o.val.hasIdentity = true → mem = true) →
        CanLoad P H W rk c (fuel + 1) G s m a := by
      intro s2 s3 x G3 mem rec l2 l3 l5 b1 b2 hmem
      refine ⟨x, nd, mem, s3, G3, hnd, ?_, b2.inv, b2.le, l2 ▸ b2.heap, b2.res, ?_, ?_, ?_⟩
      · intro cont name
        simp only [loadNode, hnd]
        rw [M.bind_of_ok (M.get_apply s), hm]
        simp only []
        rw [M.bind_of_ok (a := (x, mem)) (s1 := s3)]
        rw [l5, M.bind_of_ok b1]; rfl
      · intro y b q hy hq hi hu
        rcases b2.shared y b q hy hq hi hu with h | ⟨rfl, rfl⟩
        · exact .inl h
        · rw [ho] at hq; simp at hq; subst hq
          exact .inr ⟨hmem hi, rfl, rfl⟩
      · intro n
        rcases b2.memo n with h | ⟨b, h1, h2⟩
        · exact .inl (h.trans (by rw [l3]))
        · exact .inr ⟨b, h1, by omega⟩
      · intro _
        refine ⟨hW, ?_⟩
        rcases b2.memo m with h | ⟨b, h1, h2⟩
        · rw [h, l3]; exact hm
        · have := hh.uniq m a b hW h1; subst this; omega
    have hobj : (expected c.env o.cls).1 = .object → ∃ cl st, nd.body = .dset (.pickleObj cl st) := by
      intro h
      rw [expected_object h] at hhd
      cases hhd with
      | pickled h1 => exact ⟨_, _, hbd⟩
    have hb' : HasBody base H c.store W nd od subs := by cases od <;> exact hbd
    cases hl : o.lost c.env with
    | false =>
      have hok := hh.good.ok a o ho hl
      obtain ⟨s2, l1, l2, l3, l4, l5⟩ := loadObj_start hh hL ho hty hobj (fun _ => importable_of_ok hok) (loadNode c fuel)
      obtain ⟨x, G3, s3, b1, b2⟩ := body_ok hh l1 (hS.of_memo rfl l3) ho hok ih hhd hb' l4
      exact fin l2 l3 l5 b1 b2 (memo_of_identity hok hhd)
    | true =>
      by_cases h1 : (expected c.env o.cls).1 = .object
      · obtain ⟨s2, l1, l2, l3, l4, l5⟩ := loadObj_start hh hL ho hty hobj (fun h => absurd h1 h) (loadNode c fuel)
        have hexp := expected_object h1
        rw [hexp] at l5 l4
        generalize hfn : (expected c.env o.cls).2.fn = fn at hhd
        rw [hexp] at hfn; simp only at hfn; subst hfn
        cases hhd with
        | @pickled _ _ st hv =>
          obtain ⟨x, G3, s3, b1, b2⟩ := load_pickled_lost (rk := rk) l1 (hS.of_memo rfl l3) ho hl hv (attrs := nd.attrs)
          refine fin (x := x) (s3 := s3) l2 l3 l5 ?_ b2 (fun _ => rfl)
          have hbd' : nd.body = .dset (.pickleObj o.cls st) := hb'
          unfold loadBody
          rw [M.bind_of_ok (M.get_apply s2)]
          simp only [Node.isGroup, hbd', l4.loadFn l1.reg hh.mgr (show stdBase "pickle" = some (none, some .pickled, none) from rfl), Option.getD_some]
          exact b1
      · obtain ⟨s2, l1, l2, l3, l5⟩ := loadObj_recover hh hL hty h1 hl (loadNode c fuel)
        obtain ⟨x, G3, s3, b1, b2⟩ := body_recover hh l1 (hS.of_memo rfl l3) ho hl h1 ih hhd hb'
        exact fin l2 l3 l5 b1 b2 (fun _ => rfl)

theorem not_ref (hh : LHyp P base H W rk c) {m : NodeId} {a : Addr} (hW : W m a) {nd : Node} (hn : c.store[m]? = some nd) {t : NodeId} :
    nd.body ≠ .dset (.ref t) := by
  obtain ⟨o, nd', od, subs, _, h2, _, h4, h5⟩ := hh.nodes m a hW
  rw [hn] at h2; simp at h2; subst h2
  intro hb
  cases od with
  | none => obtain ⟨ls, h6, _⟩ := h5; rw [hb] at h6; simp at h6
  | some d =>
    simp only at h5
    rw [hb] at h5; simp at h5; subst h5
    generalize (expected c.env o.cls).2.fn = fn at h4
    cases h4 with
    | oseq _ _ h => cases h

/-- a reference to a node -/
theorem load_ref (hh : LHyp P base H W rk c) {s : LState} {G : Ghost} (hL : LInv P H W c G s) (hS : Shared H W G s) {m t : NodeId} {a : Addr} {nd : Node}
    (hn : c.store[m]? = some nd) (hb : nd.body = .dset (.ref t)) (hty : Assoc.get? nd.attrs "type" = none) {fuel : Nat}
    (ih : ∀ G s, LInv P H W c G s → Shared H W G s → CanLoad P H W rk c fuel G s t a) : CanLoad P H W rk c (fuel + 1) G s m a := by
  have hm : Assoc.get? s.memo m = none := by
    cases hm : Assoc.get? s.memo m with
    | none => rfl
    | some x =>
      obtain ⟨a', hw, _⟩ := hL.memo m x hm
      exact absurd hb (not_ref hh hw hn)
  obtain ⟨r', e1, e2, e3, e4⟩ := loadLoader_spec (m := c.mgr) hh.env hh.mgr.dumps (goodCls_nodeRef P c.env) (some "!node-reference!") hL.reg
  have hexp : expected c.env .nodeRef = (.nodeRef, ⟨.dumpNothing, "!node-reference!", false⟩) := rfl
  rw [hexp] at e1 e4
  have hL1 : LInv P H W c G { s with reg := r' } := { hL with reg := e2 }
  obtain ⟨x, tn, mem, s1, G1, t1, t2, ld⟩ := ih G { s with reg := r' } hL1 hS
  obtain ⟨s3, f1, f2, f3, f4, f5⟩ := ld.finish (cont := .expand []) (cont' := .expand [x]) (name := tn.name) (attrs := tn.attrs) (s2 := s1) rfl ld.inv rfl rfl
  have hcont : c.mgr.container r' "!node-reference!" = some .expandRef := e4.container e2 hh.mgr rfl
  refine ⟨x, nd, false, s3, G1, hn, ?_, f2, ld.le, by rw [f4]; exact ld.heap, ld.res,
    fun y b o hy ho hi hu => .inl (f3 y b o hy ho hi hu), f5, by simp⟩
  intro cont name
  simp only [loadNode, hn]
  rw [M.bind_of_ok (M.get_apply s), hm]
  simp only []
  rw [M.bind_of_ok (a := (x, false)) (s1 := s3)]
  unfold loadObj
  rw [M.bind_of_ok (a := ⟨.nodeRef, "!node-reference!", "!node-reference!", true⟩) (s1 := s) (by unfold resolveType; rw [hty, hb]; rfl)]
  rw [M.bind_of_ok (a := (.nodeRef, ⟨.dumpNothing, "!node-reference!", false⟩)) (s1 := { s with reg := r' }) (by unfold lOnReg; rw [e1])]
  rw [M.bind_of_ok (a := x) (s1 := s3)]
  · rfl
  · unfold loadBody
    rw [M.bind_of_ok (M.get_apply _)]
    simp only [hcont, if_true, Option.getD_some, mkCont]
    rw [M.bind_of_ok (M.pure_apply _ _), M.bind_of_ok (a := [(tn.name, t)]) (s1 := { s with reg := r' }) (by unfold contFilter; rw [hb]; simp only [t1]; rfl)]
    rw [M.bind_of_ok (a := .expand [x]) (s1 := s3)]
    · rfl
    · simp only [M.foldEach]
      rw [M.bind_of_ok ((t2 (.expand []) tn.name).trans f1)]
      rfl

/-- Loading the node of an object, or a reference to it, yields a copy of the object. -/
theorem loadNode_spec (hh : LHyp P base H W rk c) (fuel : Nat) :
    (∀ m a G s, 2 * rk a + 1 ≤ fuel → W m a → LInv P H W c G s → Shared H W G s → CanLoad P H W rk c fuel G s m a) ∧
    (∀ m a attrs G s, 2 * rk a + 2 ≤ fuel → Child c.store W m a attrs → LInv P H W c G s → Shared H W G s → CanLoad P H W rk c fuel G s m a) := by
  induction fuel with
  | zero => exact ⟨fun _ _ _ _ h => by omega, fun _ _ _ _ _ h => by omega⟩
  | succ fuel ih =>
    have hc : ∀ a, 2 * rk a ≤ fuel → ChildLoads P H W rk c fuel a := by
      intro a hf m b attrs G s hr hch hL hS
      exact ih.2 m b attrs G s (by omega) hch hL hS
    refine ⟨fun m a G s hf hW hL hS => load_direct hh hL hS hW (hc a (by omega)), ?_⟩
    intro m a attrs G s hf hch hL hS
    obtain ⟨nd, h1, h2, h3 | ⟨t, h3, h4, h5⟩⟩ := hch
    · exact load_direct hh hL hS h3 (hc a (by omega))
    · exact load_ref hh hL hS h1 h3 h4 fun G s hL hS => ih.1 t a G s (by omega) h5 hL hS

end Verif
