import Verif.Hickle.LoadInv
/-!
# Loading what was dumped

`loadNode_spec`: loading the node of an object yields a copy of it.
-/
namespace Verif

/-! ### keys rebuilt from their names -/

theorem swapSlashes_id {s : PyStr} (h : strSlash s = false) : swapSlashes s = s := by
  unfold swapSlashes
  unfold strSlash at h
  induction s with
  | nil => rfl
  | cons x xs ih =>
    simp only [List.any_cons, Bool.or_eq_false_iff, decide_eq_false_iff_not] at h
    simp only [List.map_cons, if_neg h.1.2]
    rw [ih h.2]

theorem dropLast_quote (s : PyStr) (x : Nat) : (s ++ [x]).dropLast = s := by simp

/-- native objects whose class name is in `dict_key_types_dict` -/
theorem keyNative {env : Env} {o : Obj} (hok : ObjOk env o) (hu : ∀ k, o.cls = .user k → dictKeyTypes.contains (env.u k).name = false)
    (hd : dictKeyTypes.contains (o.cls.name env.u) = true) :
    o = ⟨.noneType, .none⟩ ∨ (∃ b, o = ⟨.bool, .bool b⟩) ∨ (∃ i, o = ⟨.int, .int i⟩) ∨ (∃ x, o = ⟨.float, .float x⟩) ∨
      ∃ x y, o = ⟨.complex, .cplx x y⟩ := by
  obtain ⟨cl, val⟩ := o
  cases cl with
  | user k => have := hu k rfl; simp only [Cls.name] at hd; rw [this] at hd; simp at hd
  | noneType => cases val <;> simp [ObjOk, NativeOk] at hok; simp
  | bool => cases val <;> simp [ObjOk, NativeOk] at hok; simp
  | int => cases val <;> simp [ObjOk, NativeOk] at hok; simp
  | float => cases val <;> simp [ObjOk, NativeOk] at hok; simp
  | complex => cases val <;> simp [ObjOk, NativeOk] at hok; simp
  | _ => exact absurd hd (by simp only [Cls.name]; decide)

/-- a key stored by name is rebuilt exactly -/
theorem loadKey_of_keySlot {env : Env} {o : Obj} (hok : ObjOk env o) (hk : KeyOk env o) {name : PyStr} {kbt : String}
    (h : keySlot env o = .ok (some (name, kbt))) : loadKey env kbt name = .ok (some o) ∧ o.nameKey = true := by
  obtain ⟨h1, h2, h3, h4, h5, h6⟩ := hk
  by_cases hs : ∃ s, o.val = .str s
  · obtain ⟨s, hs⟩ := hs
    have hc := h2 s hs
    obtain ⟨cl, val⟩ := o
    simp only at hc hs; subst hc hs
    simp only [keySlot] at h
    split at h
    · simp at h
    · next hsl =>
      simp only [Except.ok.injEq, Option.some.injEq, Prod.mk.injEq] at h
      obtain ⟨rfl, rfl⟩ := h
      refine ⟨?_, by simp [Obj.nameKey, hsl]⟩
      simp [loadKey, Cls.name]
  by_cases hb : ∃ b, o.val = .bytes b
  · obtain ⟨b, hb⟩ := hb
    have hc := h3 b hb
    obtain ⟨cl, val⟩ := o
    simp only at hc hb; subst hc hb
    simp only [keySlot] at h
    split at h
    · simp at h
    · next hsl =>
      split at h
      · simp at h
      · next s hs =>
        simp only [Except.ok.injEq, Option.some.injEq, Prod.mk.injEq] at h
        obtain ⟨rfl, rfl⟩ := h
        refine ⟨?_, by simp [Obj.nameKey, hsl, hs]⟩
        simp [loadKey, Cls.name, utf8Encode_decode hs]
  by_cases hd : dictKeyTypes.contains (o.cls.name env.u) = true
  · rcases keyNative hok h4 hd with rfl | ⟨b, rfl⟩ | ⟨i, rfl⟩ | ⟨x, rfl⟩ | ⟨x, y, rfl⟩
    · simp only [keySlot, hd, if_true, reprKey] at h
      rw [if_neg (by decide)] at h
      simp only [Except.ok.injEq, Option.some.injEq, Prod.mk.injEq] at h
      obtain ⟨rfl, rfl⟩ := h
      exact ⟨rfl, rfl⟩
    · cases b with
      | false => exact absurd rfl h1
      | true =>
        simp only [keySlot, hd, if_true, reprKey] at h
        rw [if_neg (by decide)] at h
        simp only [Except.ok.injEq, Option.some.injEq, Prod.mk.injEq] at h
        obtain ⟨rfl, rfl⟩ := h
        exact ⟨rfl, rfl⟩
    · simp only [keySlot, hd, if_true, reprKey] at h
      by_cases hdg : digitsOk env i = true
      · rw [if_pos hdg] at h
        simp only at h
        split at h
        · simp at h
        · next hsl =>
          simp only [Except.ok.injEq, Option.some.injEq, Prod.mk.injEq] at h
          obtain ⟨rfl, rfl⟩ := h
          refine ⟨?_, rfl⟩
          simp [loadKey, Cls.name, swapSlashes_id (Bool.eq_false_iff.2 hsl), parseInt_showInt, hdg]
      · rw [if_neg hdg] at h; simp at h
    · simp only [keySlot, hd, if_true, reprKey] at h
      split at h
      · simp at h
      · next hsl =>
        simp only [Except.ok.injEq, Option.some.injEq, Prod.mk.injEq] at h
        obtain ⟨rfl, rfl⟩ := h
        refine ⟨?_, rfl⟩
        simp [loadKey, Cls.name, swapSlashes_id (Bool.eq_false_iff.2 hsl), (h5 x rfl).1]
    · simp only [keySlot, hd, if_true, reprKey] at h
      split at h
      · simp at h
      · next hsl =>
        simp only [Except.ok.injEq, Option.some.injEq, Prod.mk.injEq] at h
        obtain ⟨rfl, rfl⟩ := h
        refine ⟨?_, rfl⟩
        simp [loadKey, Cls.name, swapSlashes_id (Bool.eq_false_iff.2 hsl), (h6 x y rfl).1]
  · have : keySlot env o = .ok none := by
      simp only [keySlot]
      cases hv : o.val with
      | str s => exact absurd ⟨s, hv⟩ hs
      | bytes b => exact absurd ⟨b, hv⟩ hb
      | _ => simp only [if_neg hd]
    rw [this] at h; simp at h

theorem strSlash_showInt (i : Int) : strSlash (showInt i) = false := by
  unfold strSlash
  rw [List.any_eq_false]
  intro c hc
  rcases showInt_chars i c hc with h | h
  · simp only [isDigit, Bool.and_eq_true, decide_eq_true_eq] at h
    simp only [Bool.or_eq_true, decide_eq_true_eq]; omega
  · subst h; decide

/-- keys that are not stored by name are not plain -/
theorem plainKey_of_keySlot {env : Env} {o : Obj} (hk : KeyOk env o) (h : keySlot env o = .ok none) : o.plainKey = false := by
  obtain ⟨h1, h2, h3, h4, h5, h6⟩ := hk
  obtain ⟨cl, val⟩ := o
  have key : ∀ {t : PyStr}, strSlash t = false → ∀ {k : String}, (Except.ok (if strSlash t = true then Option.none else some (t, k)) : Except PyErr _) ≠ .ok none := by
    intro t ht k; simp [ht]
  cases cl <;> cases val <;> first | rfl | skip
  · have hd : dictKeyTypes.contains (Cls.noneType.name env.u) = true := by simp only [Cls.name]; decide
    simp only [keySlot, hd, if_true, reprKey] at h
    exact absurd h (key (by decide))
  · next b =>
    have hd : dictKeyTypes.contains (Cls.bool.name env.u) = true := by simp only [Cls.name]; decide
    simp only [keySlot, hd, if_true, reprKey] at h
    exact absurd h (key (by cases b <;> decide))
  · next i =>
    have hd : dictKeyTypes.contains (Cls.int.name env.u) = true := by simp only [Cls.name]; decide
    simp only [keySlot, hd, if_true, reprKey] at h
    by_cases hd : digitsOk env i = true
    · rw [if_pos hd] at h; exact absurd h (key (strSlash_showInt i))
    · rw [if_neg hd] at h; simp at h
  · next x =>
    have hd : dictKeyTypes.contains (Cls.float.name env.u) = true := by simp only [Cls.name]; decide
    simp only [keySlot, hd, if_true, reprKey] at h
    exact absurd h (key (h5 x rfl).2)
  · next x y =>
    have hd : dictKeyTypes.contains (Cls.complex.name env.u) = true := by simp only [Cls.name]; decide
    simp only [keySlot, hd, if_true, reprKey] at h
    exact absurd h (key (h6 x y rfl).2)

/-! ### the sub nodes of a group -/

/-- a sub item, its node and its object -/
structure Kid where
  sub : Sub
  node : NodeId
  addr : Addr

def Kid.link (k : Kid) : PyStr × NodeId := (k.sub.name, k.node)

/-- index of the item (`item_index` or `key_idx`) -/
def Kid.idx (k : Kid) : Nat :=
  match k.sub.attrs with
  | (_, .int i) :: _ => i.toNat
  | _ => 0

theorem Kids.zip {base : Nat} {H : Heap} {S : Store} {W : Rel} {ls subs} (h : Kids base H S W ls subs) :
    ∃ zs : List Kid, zs.map Kid.link = ls ∧ zs.map (fun k => Except.ok k.sub) = subs ∧
      ∀ k ∈ zs, SubAt base H k.sub.obj k.addr ∧ Child S W k.node k.addr k.sub.attrs := by
  induction h with
  | nil => exact ⟨[], rfl, rfl, by simp⟩
  | @cons sb a m ls subs _ h1 h2 _ ih =>
    obtain ⟨zs, e1, e2, e3⟩ := ih
    refine ⟨⟨sb, m, a⟩ :: zs, by simp [e1, Kid.link], by simp [e2], ?_⟩
    intro k hk
    rcases List.mem_cons.1 hk with rfl | hk
    · exact ⟨h1, h2⟩
    · exact e3 k hk

theorem perm_map_lift {α β : Type} (f : α → β) {l' m : List β} (h : l'.Perm m) :
    ∀ l : List α, l.map f = m → ∃ l'' : List α, l''.Perm l ∧ l''.map f = l' := by
  induction h with
  | nil => intro l hl; exact ⟨[], by simp at hl; simp [hl], rfl⟩
  | cons x _ ih =>
    intro l hl
    cases l with
    | nil => simp at hl
    | cons y l =>
      simp at hl
      obtain ⟨l'', h1, h2⟩ := ih l hl.2
      exact ⟨y :: l'', h1.cons y, by simp [h2, hl.1]⟩
  | swap x y l0 =>
    intro l hl
    match l, hl with
    | a :: b :: l, hl =>
      simp at hl
      exact ⟨b :: a :: l, List.Perm.swap a b l, by simp [hl]⟩
  | trans _ _ ih1 ih2 =>
    intro l hl
    obtain ⟨l1, h1, h2⟩ := ih2 l hl
    obtain ⟨l2, h3, h4⟩ := ih1 l1 h2
    exact ⟨l2, h3.trans h1, h4⟩

/-! ### one step and loops -/

variable {P : Nat → Prop} {base : Nat} {H : Heap} {W : Rel} {rk : Addr → Nat} {c : LCtx}

/-- the object of node `m` has been loaded but not yet handed to the parent -/
structure Loaded (P : Nat → Prop) (H : Heap) (W : Rel) (rk : Addr → Nat) (c : LCtx) (s : LState) (G : Ghost) (m : NodeId)
    (a x : Addr) (mem : Bool) (G1 : Ghost) (s1 : LState) : Prop where
  inv : LInv P H W c G1 s1
  le : G.Le G1
  heap : s.heap <+: s1.heap
  res : G1.R x a
  shared : ∀ y b o, G1.R y b → H[b]? = some o → o.val.hasIdentity = true → o ≠ unitObj →
    (∃ n, W n b ∧ Assoc.get? s1.memo n = some y) ∨ (mem = true ∧ y = x ∧ b = a)
  memo : ∀ n, Assoc.get? s1.memo n = Assoc.get? s.memo n ∨ ∃ b, W n b ∧ rk b ≤ rk a
  keep : mem = true → W m a ∧ Assoc.get? s1.memo m = none

def CanLoad (P : Nat → Prop) (H : Heap) (W : Rel) (rk : Addr → Nat) (c : LCtx) (fuel : Nat) (G : Ghost) (s : LState) (m : NodeId) (a : Addr) : Prop :=
  ∃ x nd mem s1 G1, c.store[m]? = some nd ∧
    (∀ cont name, loadNode c fuel cont name m s = loadFinish c cont name x nd.attrs m mem s1) ∧
    Loaded P H W rk c s G m a x mem G1 s1

theorem Loaded.finish {s : LState} {G : Ghost} {m : NodeId} {a x : Addr} {mem : Bool} {G1 : Ghost} {s1 : LState}
    (h : Loaded P H W rk c s G m a x mem G1 s1) {cont cont' : Cont} {name : PyStr} {attrs : Attrs} {G2 : Ghost} {s2 : LState}
    (ha : contAppend c cont name x attrs s1 = (.ok cont', s2)) (hi : LInv P H W c G2 s2) (hR : G2.R = G1.R)
    (hm : s2.memo = s1.memo) :
    ∃ s3, loadFinish c cont name x attrs m mem s1 = (.ok cont', s3) ∧ LInv P H W c G2 s3 ∧ Shared H W G2 s3 ∧ s3.heap = s2.heap ∧
      (∀ n, Assoc.get? s3.memo n = Assoc.get? s.memo n ∨ ∃ b, W n b ∧ rk b ≤ rk a) := by
  unfold loadFinish
  rw [M.bind_of_ok ha]
  cases mem with
  | false =>
    refine ⟨s2, rfl, hi, ?_, rfl, by rw [hm]; exact h.memo⟩
    intro y b o hy ho hid hu
    rw [hR] at hy
    rcases h.shared y b o hy ho hid hu with ⟨n, h1, h2⟩ | ⟨h1, _⟩
    · exact ⟨n, h1, by rw [hm]; exact h2⟩
    · simp at h1
  | true =>
    obtain ⟨hW, hn⟩ := h.keep rfl
    refine ⟨{ s2 with memo := Assoc.put s2.memo m x }, rfl, hi.put hW (by rw [hR]; exact h.res), ?_, rfl, ?_⟩
    · intro y b o hy ho hid hu
      rw [hR] at hy
      simp only [Assoc.get?_put]
      rcases h.shared y b o hy ho hid hu with ⟨n, h1, h2⟩ | ⟨_, rfl, rfl⟩
      · refine ⟨n, h1, ?_⟩
        rw [if_neg (by rintro rfl; rw [hn] at h2; simp at h2), hm]; exact h2
      · exact ⟨m, hW, by simp⟩
    · intro n
      simp only [Assoc.get?_put]
      by_cases he : m = n
      · subst he; exact .inr ⟨a, hW, Nat.le_refl _⟩
      · rw [if_neg he, hm]; exact h.memo n

/-- what the recursion provides -/
def ChildLoads (P : Nat → Prop) (H : Heap) (W : Rel) (rk : Addr → Nat) (c : LCtx) (fuel : Nat) (a : Addr) : Prop :=
  ∀ m b attrs G s, rk b < rk a → Child c.store W m b attrs → LInv P H W c G s → Shared H W G s → CanLoad P H W rk c fuel G s m b

/-- container invariant `I` is kept by appending a copy of the next kid -/
def KeepsOn (P : Nat → Prop) (H : Heap) (W : Rel) (c : LCtx) (zs : List Kid) (I : List Kid → Cont → Ghost → Prop) : Prop :=
  ∀ done k rest cont G s x nd, done ++ k :: rest = zs → I done cont G → LInv P H W c G s → G.R x k.addr →
    c.store[k.node]? = some nd → (∀ p ∈ k.sub.attrs, Assoc.get? nd.attrs p.1 = some p.2) → Assoc.get? nd.attrs "base_type" = none →
    ∃ cont' G' s', contAppend c cont k.sub.name x nd.attrs s = (.ok cont', s') ∧ LInv P H W c G' s' ∧ G.Le G' ∧ G'.R = G.R ∧
      s.heap <+: s'.heap ∧ s'.memo = s.memo ∧ I (done ++ [k]) cont' G'

theorem fold_kids {fuel : Nat} {a : Addr} (ih : ChildLoads P H W rk c fuel a) {zs : List Kid} {I : List Kid → Cont → Ghost → Prop}
    (hz : ∀ k ∈ zs, rk k.addr < rk a ∧ Child c.store W k.node k.addr k.sub.attrs)
    (hmono : ∀ done cont G G', G.Le G' → I done cont G → I done cont G') (hk : KeepsOn P H W c zs I) :
    ∀ rest done cont G s, done ++ rest = zs → I done cont G → LInv P H W c G s → Shared H W G s →
    ∃ cont' G' s', M.foldEach (fun sub (p : PyStr × NodeId) => loadNode c fuel sub p.1 p.2) cont (rest.map Kid.link) s = (.ok cont', s') ∧
      LInv P H W c G' s' ∧ Shared H W G' s' ∧ G.Le G' ∧ s.heap <+: s'.heap ∧
      (∀ n, Assoc.get? s'.memo n = Assoc.get? s.memo n ∨ ∃ b, W n b ∧ rk b < rk a) ∧ I zs cont' G' := by
  intro rest
  induction rest with
  | nil =>
    intro done cont G s hd hI hL hS
    simp at hd; subst hd
    exact ⟨cont, G, s, rfl, hL, hS, .refl G, List.prefix_rfl, fun _ => .inl rfl, hI⟩
  | cons k rest ihr =>
    intro done cont G s hd hI hL hS
    obtain ⟨hr, hc⟩ := hz k (by rw [← hd]; simp)
    obtain ⟨x, nd, mem, s1, G1, e1, e2, ld⟩ := ih k.node k.addr k.sub.attrs G s hr hc hL hS
    obtain ⟨nd', e1', ⟨hat, hbt⟩, _⟩ := hc
    rw [e1] at e1'; simp at e1'; subst e1'
    obtain ⟨cont', G2, s2, a1, a2, a3, a4, a5, a6, a7⟩ := hk done k rest cont G1 s1 x nd hd (hmono _ _ _ _ ld.le hI) ld.inv ld.res e1 hat hbt
    obtain ⟨s3, f1, f2, f3, f4, f5⟩ := ld.finish a1 a2 a4 a6
    obtain ⟨cont'', G3, s4, g1, g2, g3, g4, g5, g6, g7⟩ := ihr (done ++ [k]) cont' G2 s3 (by simpa using hd) a7 f2 f3
    refine ⟨cont'', G3, s4, ?_, g2, g3, (ld.le.trans a3).trans g4, ?_, ?_, g7⟩
    · simp only [List.map_cons, M.foldEach]
      rw [M.bind_of_ok (show loadNode c fuel cont k.link.1 k.link.2 s = _ from (e2 cont k.sub.name).trans f1)]
      exact g1
    · exact (ld.heap.trans a5).trans (f4 ▸ g5)
    · intro n
      rcases g6 n with h1 | h1
      · rw [h1]
        rcases f5 n with h2 | ⟨b, h2, h3⟩
        · exact .inl h2
        · exact .inr ⟨b, h2, by omega⟩
      · exact .inr h1

/-! ### sequences -/

theorem listSubs_get (j : Nat) (items : List Addr) (i : Nat) :
    (listSubs j items)[i]? = (items[i]?).map fun a => .ok ⟨dataName (j + i), .addr a, [("item_index", .int (j + i : Nat))]⟩ := by
  induction items generalizing i j with
  | nil => simp [listSubs]
  | cons a as ih =>
    cases i with
    | zero => simp [listSubs]
    | succ i => simp only [listSubs, List.getElem?_cons_succ, ih, show j + 1 + i = j + (i + 1) by omega]

theorem dictSubs_get (env : Env) (H : Heap) (j : Nat) (es : List (Addr × Addr)) (i : Nat) :
    (dictSubs env H j es)[i]? = (es[i]?).map fun e => dictSub env H (j + i) e.1 e.2 := by
  induction es generalizing i j with
  | nil => simp [dictSubs]
  | cons e es ih =>
    obtain ⟨k, v⟩ := e
    cases i with
    | zero => simp [dictSubs]
    | succ i => simp only [dictSubs, List.getElem?_cons_succ, ih, show j + 1 + i = j + (i + 1) by omega]

theorem listSubs_length (j : Nat) (items : List Addr) : (listSubs j items).length = items.length := by
  induction items generalizing j with
  | nil => rfl
  | cons a as ih => simp [listSubs, ih]

theorem dictSubs_length (env : Env) (H : Heap) (j : Nat) (es : List (Addr × Addr)) : (dictSubs env H j es).length = es.length := by
  induction es generalizing j with
  | nil => rfl
  | cons e es ih => obtain ⟨k, v⟩ := e; simp [dictSubs, ih]

/-- the kids of a sequence or set: index and object of each -/
structure SeqKids (items : List Addr) (zs : List Kid) : Prop where
  at' : ∀ k ∈ zs, k.sub.attrs = [("item_index", .int (k.idx : Nat))] ∧ items[k.idx]? = some k.addr
  nodup : (zs.map Kid.idx).Nodup
  full : ∀ i < items.length, ∃ k ∈ zs, k.idx = i
  addrs : (zs.map Kid.addr).Perm items
  names : ∀ k ∈ zs, k.sub.name ≠ ps "data"

theorem SeqKids.perm {items zs zs'} (h : SeqKids items zs) (hp : zs'.Perm zs) : SeqKids items zs' :=
  ⟨fun k hk => h.at' k (hp.mem_iff.1 hk), (hp.map _).nodup_iff.2 h.nodup,
   fun i hi => by obtain ⟨k, h1, h2⟩ := h.full i hi; exact ⟨k, hp.mem_iff.2 h1, h2⟩, (hp.map _).trans h.addrs, fun k hk => h.names k (hp.mem_iff.1 hk)⟩

theorem dataName_ne (i : Nat) : dataName i ≠ ps "data" := by
  intro h
  have := congrArg List.length h
  simp only [dataName, List.length_append] at this
  have hd := digits_ne_nil i
  cases hd' : digits i with
  | nil => exact hd hd'
  | cons a l => rw [hd'] at this; simp at this

theorem seqKids_mk {items : List Addr} {zs : List Kid} (hl : zs.length = items.length)
    (key : ∀ (i : Nat) k, zs[i]? = some k → k.sub.name = dataName i ∧ k.sub.attrs = [("item_index", .int (i : Nat))] ∧ items[i]? = some k.addr) :
    SeqKids items zs := by
  have hnm : ∀ k ∈ zs, k.sub.name ≠ ps "data" := by
    intro k hk
    obtain ⟨i, hi⟩ := List.getElem?_of_mem hk
    rw [(key i k hi).1]; exact dataName_ne i
  replace key : ∀ (i : Nat) k, zs[i]? = some k → k.idx = i ∧ k.sub.attrs = [("item_index", .int (i : Nat))] ∧ items[i]? = some k.addr := by
    intro i k hk
    obtain ⟨_, h2, h3⟩ := key i k hk
    exact ⟨by unfold Kid.idx; rw [h2]; rfl, h2, h3⟩
  have hidx : zs.map Kid.idx = List.range zs.length := by
    apply List.ext_getElem?
    intro i
    rw [List.getElem?_map]
    cases hk : zs[i]? with
    | none =>
      have := List.getElem?_eq_none_iff.1 hk
      rw [List.getElem?_eq_none (by simpa using this)]; rfl
    | some k =>
      have hlt : i < zs.length := lt_of_getElem? hk
      rw [List.getElem?_range hlt]
      simp [(key i k hk).1]
  have haddr : zs.map Kid.addr = items := by
    apply List.ext_getElem?
    intro i
    rw [List.getElem?_map]
    cases hk : zs[i]? with
    | none =>
      have := List.getElem?_eq_none_iff.1 hk
      rw [List.getElem?_eq_none (by omega)]; rfl
    | some k => simp [(key i k hk).2.2]
  refine ⟨?_, by rw [hidx]; exact List.nodup_range, ?_, by rw [haddr], hnm⟩
  · intro k hk
    obtain ⟨i, hi⟩ := List.getElem?_of_mem hk
    obtain ⟨h1, h2, h3⟩ := key i k hi
    rw [h1]; exact ⟨h2, h3⟩
  · intro i hi
    have : i < zs.length := by omega
    exact ⟨zs[i], List.getElem_mem _, (key i _ (List.getElem?_eq_getElem this)).1⟩

theorem seqKids_of {base : Nat} {H : Heap} {items : List Addr} {zs : List Kid} (h : zs.map (fun k => Except.ok k.sub) = listSubs 0 items)
    (hs : ∀ k ∈ zs, SubAt base H k.sub.obj k.addr) : SeqKids items zs := by
  refine seqKids_mk (by rw [← listSubs_length 0 items, ← h, List.length_map]) ?_
  intro i k hk
  have h1 : (listSubs 0 items)[i]? = some (.ok k.sub) := by rw [← h, List.getElem?_map, hk]; rfl
  rw [listSubs_get] at h1
  simp only [Option.map_eq_some_iff, Except.ok.injEq, Nat.zero_add] at h1
  obtain ⟨a, ha, he⟩ := h1
  have hsa := hs k (List.mem_of_getElem? hk)
  rw [← he] at hsa
  simp only [SubAt] at hsa
  exact ⟨by rw [← he], by rw [← he], by rw [hsa]; exact ha⟩

/-- state of `ListLikeContainer`, or a container that is like it, after the kids `done` -/
def ListState (mk : List Addr → Cont) (n : Nat) (done : List Kid) (cont : Cont) (G : Ghost) : Prop :=
  ∃ content : List Addr, cont = mk content ∧ content.length = n ∧
    ∀ i < n, (∃ k ∈ done, k.idx = i ∧ ∃ x, content[i]? = some x ∧ G.R x k.addr) ∨
      ((∀ k ∈ done, k.idx ≠ i) ∧ content[i]? = some nobody)

theorem ListState.mono {mk n done cont} {G G' : Ghost} (hle : G.Le G') (h : ListState mk n done cont G) : ListState mk n done cont G' := by
  obtain ⟨l, h1, h2, h3⟩ := h
  refine ⟨l, h1, h2, fun i hi => ?_⟩
  rcases h3 i hi with ⟨k, hk, he, x, hx, hr⟩ | h4
  · exact .inl ⟨k, hk, he, x, hx, hle.R _ _ hr⟩
  · exact .inr h4

theorem nodup_idx {zs done rest : List Kid} {k : Kid} (h : (zs.map Kid.idx).Nodup) (hz : done ++ k :: rest = zs) :
    ∀ k' ∈ done, k'.idx ≠ k.idx := by
  subst hz
  intro k' hk'
  simp only [List.map_append, List.map_cons] at h
  have := (List.nodup_append.1 h).2.2 k'.idx (List.mem_map_of_mem hk') k.idx (by simp)
  exact this

theorem list_keeps {items : List Addr} {zs : List Kid} (hz : SeqKids items zs) (mk : List Addr → Cont)
    (hmk : ∀ content name x attrs (s : LState) content', Assoc.get? attrs "base_type" = none → name ≠ ps "data" → listAppend content name x attrs = .ok content' →
      contAppend c (mk content) name x attrs s = (.ok (mk content'), s)) :
    KeepsOn P H W c zs (ListState mk items.length) := by
  intro done k rest cont G s x nd hd hI hL hR hnd hat hbt
  obtain ⟨content, rfl, hlen, hc⟩ := hI
  have hk : k ∈ zs := by rw [← hd]; simp
  obtain ⟨h1, h2⟩ := hz.at' k hk
  have hlt : k.idx < items.length := lt_of_getElem? h2
  have hne := nodup_idx hz.nodup hd
  have hfree : content[k.idx]? = some nobody := by
    rcases hc k.idx hlt with ⟨k', hk', he, _⟩ | ⟨_, h⟩
    · exact absurd he (hne k' hk')
    · exact h
  have hattr : Assoc.get? nd.attrs "item_index" = some (.int (k.idx : Nat)) := hat ("item_index", .int (k.idx : Nat)) (by rw [h1]; simp)
  refine ⟨mk (content.set k.idx x), G, s, ?_, hL, .refl G, rfl, List.prefix_rfl, rfl, content.set k.idx x, rfl, by simp [hlen], ?_⟩
  · have : listAppend content k.sub.name x nd.attrs = .ok (content.set k.idx x) := by
      have hpad : padTo nobody content k.idx = content := by
        unfold padTo
        rw [show k.idx + 1 - content.length = 0 by omega]; simp
      simp only [listAppend, listIndex, hattr]
      rw [if_pos (by omega)]
      simp only [Int.toNat_natCast, hpad, hfree, if_true]
    exact hmk _ _ _ _ _ _ hbt (hz.names k hk) this
  · intro i hi
    by_cases he : k.idx = i
    · left
      subst he
      refine ⟨k, by simp, rfl, x, ?_, hR⟩
      rw [List.getElem?_set_self (by omega)]
    · rw [List.getElem?_set_ne he]
      rcases hc i hi with ⟨k', hk', h3, r⟩ | ⟨h3, h4⟩
      · exact .inl ⟨k', by simp [hk'], h3, r⟩
      · refine .inr ⟨?_, h4⟩
        intro k' hk'
        rcases List.mem_append.1 hk' with hk' | hk'
        · exact h3 k' hk'
        · simp at hk'; rw [hk']; exact he

theorem ListState.final {items : List Addr} {zs : List Kid} (hz : SeqKids items zs) {mk cont} {G : Ghost}
    (h : ListState mk items.length zs cont G) : ∃ xs, cont = mk xs ∧ All2 G.R xs items := by
  obtain ⟨content, rfl, hlen, hc⟩ := h
  refine ⟨content, rfl, All2.of_getElem _ _ hlen ?_⟩
  intro i x a hx ha
  have hi : i < items.length := lt_of_getElem? ha
  rcases hc i hi with ⟨k, hk, he, y, hy, hr⟩ | ⟨h3, _⟩
  · have := (hz.at' k hk).2
    rw [he, ha] at this; simp at this
    rw [hx] at hy; simp at hy
    rw [hy, this]; exact hr
  · obtain ⟨k, hk, he⟩ := hz.full i hi
    exact absurd he (h3 k hk)

/-! ### sets -/

def SetState (cl : Cls) (done : List Kid) (cont : Cont) (G : Ghost) : Prop :=
  ∃ content : List Addr, cont = .set cl content ∧ All2 G.R content (done.map Kid.addr)

theorem SetState.mono {cl done cont} {G G' : Ghost} (hle : G.Le G') (h : SetState cl done cont G) : SetState cl done cont G' := by
  obtain ⟨l, h1, h2⟩ := h
  exact ⟨l, h1, h2.mono hle.R⟩

theorem set_keeps {items : List Addr} {zs : List Kid} (hz : SeqKids items zs) (hdist : Distinct c.env H items)
    (hlive : ∀ b ∈ items, Hashed c.env H b) (cl : Cls) :
    KeepsOn P H W c zs (SetState cl) := by
  intro done k rest cont G s x nd hd hI hL hR hnd hat _
  obtain ⟨content, rfl, hc⟩ := hI
  have hdist' : Distinct c.env H (done.map Kid.addr ++ [k.addr]) := by
    have hp : Distinct c.env H (zs.map Kid.addr) := hdist.perm hz.addrs.symm
    rw [← hd] at hp
    simp only [List.map_append, List.map_cons] at hp
    exact ⟨fun a ha => hp.1 a (by simp at ha ⊢; rcases ha with ha | ha <;> simp [ha]), hp.2.sublist (by simp)⟩
  have hlive' : ∀ b ∈ done.map Kid.addr ++ [k.addr], Hashed c.env H b := fun b hb => hlive b (hz.addrs.mem_iff.1 (by
    rw [← hd, List.map_append, List.map_cons]
    simp only [List.mem_append, List.mem_cons, List.not_mem_nil, or_false] at hb ⊢
    exact hb.imp id .inl))
  refine ⟨.set cl (content ++ [x]), G, s, ?_, hL, .refl G, rfl, List.prefix_rfl, rfl, content ++ [x], rfl, ?_⟩
  · simp only [contAppend]
    rw [M.bind_of_ok (M.get_apply s),
      M.bind_of_ok (show (M.ofExcept _ : LM _) s = _ from by rw [hL.setAdd (hc.mono fun _ _ h => .inl h) (.inl hR) hdist' hlive']; rfl)]
    rfl
  · simpa using hc.append (.cons hR .nil)

/-! ### dicts -/

/-- an element of the content of `DictLikeContainer` -/
def DItemOk (H : Heap) (G : Ghost) (item : DItem) (e : Addr × Addr) : Prop :=
  (∃ k v, item = .pair k v ∧ G.Q k e.1 ∧ G.R v e.2) ∨
  (∃ p q, item = .item p ∧ G.R p q ∧ H[q]? = some ⟨.tuple, .seq [e.1, e.2]⟩ ∧ ∃ o, H[e.1]? = some o ∧ o.plainKey = false)

theorem DItemOk.mono {H : Heap} {G G' : Ghost} (hle : G.Le G') {item e} (h : DItemOk H G item e) : DItemOk H G' item e := by
  rcases h with ⟨k, v, h1, h2, h3⟩ | ⟨p, q, h1, h2, h3⟩
  · exact .inl ⟨k, v, h1, hle.Q _ _ h2, hle.R _ _ h3⟩
  · exact .inr ⟨p, q, h1, hle.R _ _ h2, h3⟩

/-- the kids of a dict -/
structure DictKids (env : Env) (base : Nat) (H : Heap) (es : List (Addr × Addr)) (zs : List Kid) : Prop where
  at' : ∀ k ∈ zs, ∃ e : Addr × Addr, es[k.idx]? = some e ∧ dictSub env H k.idx e.1 e.2 = .ok k.sub ∧ SubAt base H k.sub.obj k.addr
  nodup : (zs.map Kid.idx).Nodup
  full : ∀ i < es.length, ∃ k ∈ zs, k.idx = i

theorem DictKids.perm {env base H es zs zs'} (h : DictKids env base H es zs) (hp : zs'.Perm zs) : DictKids env base H es zs' :=
  ⟨fun k hk => h.at' k (hp.mem_iff.1 hk), (hp.map _).nodup_iff.2 h.nodup,
   fun i hi => by obtain ⟨k, h1, h2⟩ := h.full i hi; exact ⟨k, hp.mem_iff.2 h1, h2⟩⟩

theorem dictSub_idx {env : Env} {H : Heap} {i : Nat} {a b : Addr} {sb : Sub} (h : dictSub env H i a b = .ok sb) :
    (∃ o name kbt, H[a]? = some o ∧ keySlot env o = .ok (some (name, kbt)) ∧
      sb = ⟨name, .addr b, [("key_idx", .int i), ("key_base_type", .bytes kbt)]⟩) ∨
    (sb = ⟨dataName i, .pair a b, [("key_idx", .int i), ("key_base_type", .bytes "key_value")]⟩ ∧ ∃ o, H[a]? = some o ∧ keySlot env o = .ok none) := by
  unfold dictSub at h
  split at h
  · simp at h
  · next o ho =>
    split at h
    · simp at h
    · next name kbt hk => simp at h; exact .inl ⟨o, name, kbt, ho, hk, h.symm⟩
    · next hk => simp at h; exact .inr ⟨h.symm, o, ho, hk⟩

theorem dictKids_of {env : Env} {base : Nat} {H : Heap} {es : List (Addr × Addr)} {zs : List Kid}
    (h : zs.map (fun k => Except.ok k.sub) = dictSubs env H 0 es) (hs : ∀ k ∈ zs, SubAt base H k.sub.obj k.addr) :
    DictKids env base H es zs := by
  have hl : zs.length = es.length := by rw [← dictSubs_length env H 0 es, ← h, List.length_map]
  have key : ∀ (i : Nat) k, zs[i]? = some k → k.idx = i ∧ ∃ e : Addr × Addr, es[i]? = some e ∧ dictSub env H i e.1 e.2 = .ok k.sub := by
    intro i k hk
    have h1 : (dictSubs env H 0 es)[i]? = some (.ok k.sub) := by rw [← h, List.getElem?_map, hk]; rfl
    rw [dictSubs_get] at h1
    simp only [Option.map_eq_some_iff, Nat.zero_add] at h1
    obtain ⟨e, ha, he⟩ := h1
    refine ⟨?_, e, ha, he⟩
    rcases dictSub_idx he with ⟨o, name, kbt, _, _, hsb⟩ | ⟨hsb, _⟩
    · unfold Kid.idx; rw [hsb]; rfl
    · unfold Kid.idx; rw [hsb]; rfl
  have hidx : zs.map Kid.idx = List.range zs.length := by
    apply List.ext_getElem?
    intro i
    rw [List.getElem?_map]
    cases hk : zs[i]? with
    | none =>
      have := List.getElem?_eq_none_iff.1 hk
      rw [List.getElem?_eq_none (by simpa using this)]; rfl
    | some k =>
      have hlt : i < zs.length := lt_of_getElem? hk
      rw [List.getElem?_range hlt]
      simp [(key i k hk).1]
  refine ⟨?_, by rw [hidx]; exact List.nodup_range, ?_⟩
  · intro k hk
    obtain ⟨i, hi⟩ := List.getElem?_of_mem hk
    obtain ⟨h1, e, h2, h3⟩ := key i k hi
    exact ⟨e, by rw [h1]; exact h2, by rw [h1]; exact h3, hs k hk⟩
  · intro i hi
    have : i < zs.length := by omega
    exact ⟨zs[i], List.getElem_mem _, (key i _ (List.getElem?_eq_getElem this)).1⟩

def DictState (H : Heap) (cl : Cls) (es : List (Addr × Addr)) (done : List Kid) (cont : Cont) (G : Ghost) : Prop :=
  ∃ content : List DItem, cont = .dict cl content ∧ content.length ≤ es.length ∧
    ∀ (i : Nat) e, es[i]? = some e → (∃ k ∈ done, k.idx = i ∧ ∃ x, content[i]? = some x ∧ DItemOk H G x e) ∨
      ((∀ k ∈ done, k.idx ≠ i) ∧ (content[i]? = none ∨ content[i]? = some .hole))

theorem DictState.mono {cl es done cont} {G G' : Ghost} (hle : G.Le G') (h : DictState H cl es done cont G) :
    DictState H cl es done cont G' := by
  obtain ⟨l, h1, h2, h3⟩ := h
  refine ⟨l, h1, h2, fun i e hi => ?_⟩
  rcases h3 i e hi with ⟨k, hk, he, x, hx, hr⟩ | h4
  · exact .inl ⟨k, hk, he, x, hx, hr.mono hle⟩
  · exact .inr h4

theorem padTo_get {α : Type} (x : α) (l : List α) (i j : Nat) :
    (padTo x l i)[j]? = if j < l.length then l[j]? else if j ≤ i then some x else none := by
  unfold padTo
  rw [List.getElem?_append]
  split
  · rfl
  · next h =>
    rw [List.getElem?_replicate]
    by_cases hj : j ≤ i
    · rw [if_pos (by omega), if_pos hj]
    · rw [if_neg (by omega), if_neg hj]

theorem padTo_length {α : Type} (x : α) (l : List α) (i : Nat) : (padTo x l i).length = max l.length (i + 1) := by
  unfold padTo; simp; omega

/-- placing an element at its free index -/
theorem dict_place {cl : Cls} {es : List (Addr × Addr)} {zs done rest : List Kid} {k : Kid} {content : List DItem} {G G' : Ghost}
    (hz : (zs.map Kid.idx).Nodup) (hd : done ++ k :: rest = zs) (hle : G.Le G') {e : Addr × Addr} (he : es[k.idx]? = some e)
    (h : DictState H cl es done (.dict cl content) G) {item : DItem} (hi : DItemOk H G' item e) {attrs : Attrs}
    (hat : Assoc.get? attrs "key_idx" = some (.int (k.idx : Nat))) :
    ∃ content', dictPlace content item attrs = .ok content' ∧ DictState H cl es (done ++ [k]) (.dict cl content') G' := by
  obtain ⟨l, h1, h2, h3⟩ := h
  simp only [Cont.dict.injEq, true_and] at h1; subst h1
  have hne := nodup_idx hz hd
  have hlt : k.idx < es.length := lt_of_getElem? he
  have hfree : content[k.idx]? = none ∨ content[k.idx]? = some .hole := by
    rcases h3 k.idx e he with ⟨k', hk', h4, _⟩ | ⟨_, h4⟩
    · exact absurd h4 (hne k' hk')
    · exact h4
  have hpad : (padTo DItem.hole content k.idx)[k.idx]? = some .hole := by
    rw [padTo_get]
    split
    · rcases hfree with h4 | h4
      · rw [List.getElem?_eq_none_iff] at h4; omega
      · exact h4
    · rw [if_pos (Nat.le_refl _)]
  refine ⟨(padTo DItem.hole content k.idx).set k.idx item, ?_, _, rfl, ?_, ?_⟩
  · simp only [dictPlace, hat]
    rw [if_pos (by omega)]
    simp only [Int.toNat_natCast, hpad]
  · rw [List.length_set, padTo_length]; omega
  · intro i e' he'
    by_cases hki : k.idx = i
    · subst hki
      rw [he] at he'; simp at he'; subst he'
      refine .inl ⟨k, by simp, rfl, item, ?_, hi⟩
      rw [List.getElem?_set_self (by rw [padTo_length]; omega)]
    · rw [List.getElem?_set_ne hki, padTo_get]
      rcases h3 i e' he' with ⟨k', hk', h4, x, hx, hxx⟩ | ⟨h4, h5⟩
      · have := lt_of_getElem? hx
        rw [if_pos this]
        exact .inl ⟨k', by simp [hk'], h4, x, hx, hxx.mono hle⟩
      · refine .inr ⟨?_, ?_⟩
        · intro k' hk'
          rcases List.mem_append.1 hk' with hk' | hk'
          · exact h4 k' hk'
          · simp at hk'; rw [hk']; exact hki
        · split
          · exact h5
          · split
            · exact .inr rfl
            · exact .inl rfl

theorem dict_keeps {base : Nat} {es : List (Addr × Addr)} {zs : List Kid} (hz : DictKids c.env base H es zs)
    (hkeys : ∀ k v, (k, v) ∈ es → ∀ q, H[k]? = some q → ObjOk c.env q ∧ KeyOk c.env q) (cl : Cls) :
    KeepsOn P H W c zs (DictState H cl es) := by
  intro done k rest cont G s x nd hd hI hL hR hnd hat _
  have hk : k ∈ zs := by rw [← hd]; simp
  obtain ⟨e, he, hsub, hsa⟩ := hz.at' k hk
  have hI0 := hI
  obtain ⟨content, rfl, _, _⟩ := hI
  rcases dictSub_idx hsub with ⟨o, name, kbt, ho, hslot, hsb⟩ | ⟨hsb, o, ho, hslot⟩
  · -- key rebuilt from the name
    obtain ⟨hlk, hatom⟩ := loadKey_of_keySlot (hkeys e.1 e.2 (List.mem_of_getElem? he) o ho).1 (hkeys e.1 e.2 (List.mem_of_getElem? he) o ho).2 hslot
    rw [hsb] at hsa
    simp only [SubAt] at hsa
    have hq := hL.allocQ ho hatom
    have hle := G.le_addQ s.heap.length e.1
    have hitem : DItemOk H (G.addQ s.heap.length e.1) (.pair s.heap.length x) e :=
      .inl ⟨_, _, rfl, .inr ⟨rfl, rfl⟩, by rw [← hsa]; exact hR⟩
    obtain ⟨content', hp, hst⟩ := dict_place hz.nodup hd hle he hI0 hitem (attrs := nd.attrs) (hat ("key_idx", .int (k.idx : Nat)) (by rw [hsb]; simp))
    refine ⟨_, G.addQ s.heap.length e.1, _, ?_, hq, hle, rfl, List.prefix_append _ _, rfl, hst⟩
    have hkb : Assoc.get? nd.attrs "key_base_type" = some (.bytes kbt) := hat ("key_base_type", .bytes kbt) (by rw [hsb]; simp)
    have hname : k.sub.name = name := by rw [hsb]
    simp only [contAppend, dictAppend, hkb, hname]
    rw [M.bind_of_ok (a := content') (s1 := { s with heap := s.heap ++ [o] })]
    · rfl
    · rw [M.bind_of_ok (show (pure kbt : LM String) s = (.ok kbt, s) from rfl)]
      rw [M.bind_of_ok (a := some o) (s1 := s) (by rw [hlk]; rfl)]
      simp only []
      rw [M.bind_of_ok (show lAlloc o s = (.ok s.heap.length, { s with heap := s.heap ++ [o] }) from rfl)]
      rw [hp]; rfl
  · rw [hsb] at hsa
    simp only [SubAt] at hsa
    have hitem : DItemOk H G (.item x) e :=
      .inr ⟨x, k.addr, rfl, hR, hsa.2, o, ho, plainKey_of_keySlot (hkeys e.1 e.2 (List.mem_of_getElem? he) o ho).2 hslot⟩
    obtain ⟨content', hp, hst⟩ := dict_place hz.nodup hd (.refl G) he hI0 hitem (attrs := nd.attrs) (hat ("key_idx", .int (k.idx : Nat)) (by rw [hsb]; simp))
    refine ⟨_, G, s, ?_, hL, .refl G, rfl, List.prefix_rfl, rfl, hst⟩
    have hkb : Assoc.get? nd.attrs "key_base_type" = some (.bytes "key_value") := hat ("key_base_type", .bytes "key_value") (by rw [hsb]; simp)
    simp only [contAppend, dictAppend, hkb]
    rw [M.bind_of_ok (a := content') (s1 := s)]
    · rfl
    · rw [M.bind_of_ok (show (pure "key_value" : LM String) s = (.ok "key_value", s) from rfl)]
      rw [M.bind_of_ok (a := Option.none) (s1 := s) (by rfl)]
      simp only []
      rw [hp]; rfl

theorem dictPairs_ok {G : Ghost} {s : LState} (hL : LInv P H W c G s) {content : List DItem} {es : List (Addr × Addr)}
    (h : All2 (DItemOk H G) content es) : ∃ es', dictPairs s.heap content = .ok es' ∧ All2 (EntryCopy H G.R G.N G.Q) es' es := by
  induction h with
  | nil => exact ⟨[], rfl, .nil⟩
  | @cons item e items es h1 _ ih =>
    obtain ⟨es', e1, e2⟩ := ih
    rcases h1 with ⟨k, v, rfl, h2, h3⟩ | ⟨p, q, rfl, h2, h3, hpk⟩
    · exact ⟨(k, v) :: es', by simp [dictPairs, e1, Except.map], .cons (.inl ⟨h2, h3⟩) e2⟩
    · obtain ⟨⟨cl', val'⟩, k2, k3, k4⟩ := hL.live h2 h3 rfl
      simp only at k4
      cases k4 with
      | atom ha => simp [Val.isAtom] at ha
      | @seq xs as hc =>
        have : ∃ x1 x2, xs = [x1, x2] ∧ EntryCopy H G.R G.N G.Q (x1, x2) e := by
          have hl : ∃ x1 x2, xs = [x1, x2] := by
            rcases hc with ⟨hc, _⟩ | ⟨d, _, hc⟩ <;>
              (cases hc with | cons a1 a2 => cases a2 with | cons a3 a4 => cases a4; exact ⟨_, _, rfl⟩)
          obtain ⟨x1, x2, rfl⟩ := hl
          exact ⟨x1, x2, rfl, .inr ⟨hpk, hc⟩⟩
        obtain ⟨x1, x2, rfl, hec⟩ := this
        exact ⟨(x1, x2) :: es', by simp [dictPairs, e1, k2, Except.map], .cons hec e2⟩

theorem DictState.final {base : Nat} {es : List (Addr × Addr)} {zs : List Kid} (hz : DictKids c.env base H es zs) {cl cont} {G : Ghost}
    (h : DictState H cl es zs cont G) : ∃ content, cont = .dict cl content ∧ All2 (DItemOk H G) content es := by
  obtain ⟨content, rfl, hlen, hc⟩ := h
  have hfull : ∀ (i : Nat) e, es[i]? = some e → ∃ x, content[i]? = some x ∧ DItemOk H G x e := by
    intro i e he
    rcases hc i e he with ⟨k, hk, _, x, hx, hxx⟩ | ⟨h3, _⟩
    · exact ⟨x, hx, hxx⟩
    · obtain ⟨k, hk, hi⟩ := hz.full i (lt_of_getElem? he)
      exact absurd hi (h3 k hk)
  refine ⟨content, rfl, All2.of_getElem _ _ ?_ ?_⟩
  · rcases Nat.lt_or_ge content.length es.length with hl | hl
    · obtain ⟨x, hx, _⟩ := hfull content.length _ (List.getElem?_eq_getElem hl)
      have := lt_of_getElem? hx; omega
    · omega
  · intro i x e hx he
    obtain ⟨y, hy, hyy⟩ := hfull i e he
    rw [hx] at hy; simp at hy; rw [hy]; exact hyy

end Verif
