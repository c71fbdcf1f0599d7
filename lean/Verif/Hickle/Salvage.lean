import Verif.Hickle.DumpEnds
import Verif.Hickle.Stored
/-!
# Dumping data that could only be recovered

A returning dump has handled everything the lists, tuples and dicts under the root hold, and has met no object of a class of
the package itself for which nothing is registered.
-/
namespace Verif

/-- the classes of what `load` returns instead of an object it could not restore (lookup.py:201-223) -/
def Salvaged (c : Cls) : Prop := c = .recGroup ∨ c = .recData

instance (c : Cls) : Decidable (Salvaged c) := inferInstanceAs (Decidable (_ ∨ _))

/-- an item of a list or tuple, or a value of a dict -/
def Holds (H : Heap) (a b : Addr) : Prop :=
  ∃ o, H[a]? = some o ∧
    (((o.cls = .list ∨ o.cls = .tuple) ∧ ∃ l, o.val = .seq l ∧ b ∈ l) ∨ (o.cls = .dict ∧ ∃ es k, o.val = .dict es ∧ (k, b) ∈ es))

/-- reached through lists, tuples and dicts only -/
inductive HeldIn (H : Heap) : Addr → Addr → Prop
  | here (a) : HeldIn H a a
  | under {a b c} : Holds H a b → HeldIn H b c → HeldIn H a c

/-- a list, a tuple, a dict or something that was recovered -/
def Sought (H : Heap) (a : Addr) : Prop := ∃ o, H[a]? = some o ∧ (o.cls = .list ∨ o.cls = .tuple ∨ o.cls = .dict ∨ Salvaged o.cls)

theorem Holds.sought {H : Heap} {a b : Addr} (h : Holds H a b) : Sought H a := by
  obtain ⟨o, h1, ⟨h2, _⟩ | ⟨h2, _⟩⟩ := h
  · exact ⟨o, h1, h2.elim .inl fun h => .inr (.inl h)⟩
  · exact ⟨o, h1, .inr (.inr (.inl h2))⟩

section
variable {P : Nat → Prop}

/-- no loader is found for what was recovered -/
theorem loadLoader_recovered {env : Env} {m : Manager} {r : Registry} {c : Cls} (hr : Salvaged c) (h : RegInv P r) (hm : m.Dumps) :
    loadLoader env m c none r = (.error .runtimeError, r) := by
  rcases hr with rfl | rfl
  · unfold loadLoader
    simp only [Cls.mro, loadLoaderAux]
    rw [M.bind_of_ok (M.get_apply r), h.typeEntry hm (c := .recGroup) trivial]
    rfl
  · unfold loadLoader
    simp only [Cls.mro, loadLoaderAux]
    rw [M.bind_of_ok (M.get_apply r), h.typeEntry hm (c := .recData) trivial]
    rfl

theorem dumpCreate_recovered {c : DCtx} {o : Obj} {p name} {s : DState} (hr : Salvaged o.cls) (h : RegInv P s.reg) (hm : c.mgr.Dumps) :
    dumpCreate c o p name s = (.error .runtimeError, s) := by
  unfold dumpCreate
  refine M.bind_of_error ?_
  unfold onReg
  rw [loadLoader_recovered hr h hm]

theorem native_good {env : Env} {c : Cls} (h : c = .list ∨ c = .tuple ∨ c = .dict) : GoodCls P env c := by
  rcases h with rfl | rfl | rfl
  all_goals
    intro k hk
    simp only [Cls.mro, List.mem_cons, List.not_mem_nil, or_false] at hk
    rcases hk with rfl | rfl <;> exact ⟨trivial, .inl ⟨_, rfl⟩⟩

theorem native_memo {env : Env} {c : Cls} (h : c = .list ∨ c = .tuple ∨ c = .dict) : (expected env c).2.memoise = true := by
  rcases h with rfl | rfl | rfl <;> rfl

theorem native_fn {env : Env} {c : Cls} (h : c = .list ∨ c = .tuple ∨ c = .dict) :
    (expected env c).2.fn = if c = .dict then .dictlike else .listlike := by
  rcases h with rfl | rfl | rfl <;> rfl

/-- the sub items of a list, a tuple or a dict -/
theorem dumpCreate_native {c : DCtx} (hE : EnvOk P c.env) (hm : c.mgr.Dumps) {o : Obj} (hc : o.cls = .list ∨ o.cls = .tuple ∨ o.cls = .dict)
    {s s1 : DState} (hreg : RegInv P s.reg) {g name n subs mem} (h : dumpCreate c o g name s = (.ok (n, subs, mem), s1)) :
    mem = true ∧ ∃ at' od, Head c.env s.heap (if o.cls = .dict then .dictlike else .listlike) o at' od subs := by
  obtain ⟨r', hl, _, _, _⟩ := loadLoader_spec (m := c.mgr) hE hm (native_good hc) none hreg
  unfold dumpCreate at h
  have hon : onReg (loadLoader c.env c.mgr o.cls none) s = (.ok (expected c.env o.cls), { s with reg := r' }) := by
    unfold onReg; rw [hl]
  rw [M.bind_of_ok hon, show expected c.env o.cls = ((expected c.env o.cls).1, (expected c.env o.cls).2) from rfl] at h
  dsimp only at h
  rw [M.bind_of_ok (M.get_apply _), M.bind_of_ok (M.attempt_apply _ _)] at h
  simp only at h
  rcases hcf : createFn c (expected c.env o.cls).2.fn s.heap o g name { s with reg := r' } with ⟨r, s2⟩
  rw [hcf] at h
  cases r with
  | error e =>
    simp only at h
    split at h
    · next he => exact absurd (he ▸ hcf) (createFn_noNH (expected_fn c.env o.cls).1 _ _)
    · simp at h
  | ok r =>
    obtain ⟨n', subs'⟩ := r
    simp only at h
    obtain ⟨_, s3, _, h⟩ := M.bind_ok_iff.1 h
    simp at h
    obtain ⟨⟨rfl, rfl, rfl⟩, _⟩ := h
    obtain ⟨at', od, _, _, hd⟩ := createFn_ok hcf
    exact ⟨native_memo hc, at', od, native_fn hc ▸ hd⟩

/-- one state of a dump follows another: objects and memo entries stay -/
structure Onward (s s' : DState) : Prop where
  heap : ∀ (i : Addr) (o : Obj), s.heap[i]? = some o → s'.heap[i]? = some o
  memo : ∀ a n, Assoc.get? s.memo a = some n → ∃ m, Assoc.get? s'.memo a = some m

theorem Onward.refl (s : DState) : Onward s s := ⟨fun _ _ h => h, fun _ n h => ⟨n, h⟩⟩
theorem Onward.trans {s t u : DState} (h : Onward s t) (k : Onward t u) : Onward s u :=
  ⟨fun i o e => k.heap i o (h.heap i o e), fun a n e => by obtain ⟨m, e⟩ := h.memo a n e; exact k.memo a m e⟩
theorem Onward.same {s t : DState} (h : t.heap = s.heap) (k : t.memo = s.memo) : Onward s t :=
  ⟨fun _ _ e => by rw [h]; exact e, fun _ n e => ⟨n, by rw [k]; exact e⟩⟩
theorem Onward.lt {s t : DState} (h : Onward s t) {a : Addr} (ha : a < s.heap.length) : a < t.heap.length := by
  have := h.heap a _ (List.getElem?_eq_getElem ha)
  exact (List.getElem?_eq_some_iff.1 this).1
theorem Onward.back {s t : DState} (h : Onward s t) {a : Addr} (ha : a < s.heap.length) : t.heap[a]? = s.heap[a]? := by
  rw [h.heap a _ (List.getElem?_eq_getElem ha), List.getElem?_eq_getElem ha]

/-- the object exists, and if it is sought it has been stored -/
def Handled (s : DState) (b : Addr) : Prop := b < s.heap.length ∧ (Sought s.heap b → ∃ m, Assoc.get? s.memo b = some m)

theorem Handled.after {s t : DState} {b : Addr} (h : Handled s b) (k : Onward s t) : Handled t b := by
  refine ⟨k.lt h.1, fun ⟨o, h1, h2⟩ => ?_⟩
  obtain ⟨m, hm⟩ := h.2 ⟨o, by rw [← k.back h.1]; exact h1, h2⟩
  exact k.memo _ _ hm

/-- Invariant: what has been stored was not recovered, and unless its items are still being stored they are handled -/
structure Handling (P : Nat → Prop) (S : Addr → Prop) (s : DState) : Prop where
  reg : RegInv P s.reg
  memo : ∀ a n, Assoc.get? s.memo a = some n → a < s.heap.length ∧ (∀ o, s.heap[a]? = some o → ¬ Salvaged o.cls) ∧
    (¬ S a → ∀ b, Holds s.heap a b → Handled s b)

theorem Handling.same {S} {s t : DState} (h : Handling P S s) (hh : t.heap = s.heap) (hm : t.memo = s.memo) (hr : RegInv P t.reg) : Handling P S t := by
  refine ⟨hr, ?_⟩
  intro a n ha
  rw [hm] at ha
  have := h.memo a n ha
  unfold Handled at this ⊢
  rw [hh, hm]
  exact this

/-- new objects at the end of the heap -/
theorem Handling.grow {S} {s : DState} (h : Handling P S s) (l : List Obj) :
    Handling P S { s with heap := s.heap ++ l } ∧ Onward s { s with heap := s.heap ++ l } := by
  have ha : Onward s { s with heap := s.heap ++ l } := ⟨fun i o e => by
    simp only []
    rw [List.getElem?_append_left (List.getElem?_eq_some_iff.1 e).1]; exact e, fun _ n e => ⟨n, e⟩⟩
  refine ⟨⟨h.reg, ?_⟩, ha⟩
  intro a n hn
  obtain ⟨h1, h2, h3⟩ := h.memo a n hn
  refine ⟨ha.lt h1, fun o ho => h2 o (by rw [← ha.back h1]; exact ho), fun hS b ⟨o, ho, hb⟩ => ?_⟩
  exact (h3 hS b ⟨o, by rw [← ha.back h1]; exact ho, hb⟩).after ha

theorem plain_state {x : DM α} (hk : ∀ {J}, Keeps (OnState J) x) (s : DState) :
    (x s).2.heap = s.heap ∧ (x s).2.memo = s.memo ∧ (x s).2.reg = s.reg :=
  (hk (J := fun h m r => h = s.heap ∧ m = s.memo ∧ r = s.reg) s ⟨rfl, rfl, rfl⟩).1

theorem dumpCreate_state {c : DCtx} (hE : EnvOk P c.env) (hP : ProtOk P c.env) {o p name} {s : DState} (h : RegInv P s.reg) :
    (dumpCreate c o p name s).2.heap = s.heap ∧ (dumpCreate c o p name s).2.memo = s.memo ∧ RegInv P (dumpCreate c o p name s).2.reg := by
  refine (dumpCreate_on (J := fun h m r => h = s.heap ∧ m = s.memo ∧ RegInv P r) ?_ s ⟨rfl, rfl, h⟩).1
  exact fun _ _ r cl ⟨h1, h2, h3⟩ => ⟨h1, h2, (loadLoaderAux_keeps hE hP cl none _ r h3).1⟩

/-- what is known about a sub item that has been stored -/
def SubHandled (s : DState) : SubObj → Prop
  | .addr b => Handled s b
  | .pair _ v => Handled s v
  | .nest .. => True

theorem SubHandled.after {s t : DState} (k : Onward s t) : ∀ {x : SubObj}, SubHandled s x → SubHandled t x
  | .addr _, h => Handled.after h k
  | .pair _ _, h => Handled.after h k
  | .nest .., _ => trivial

theorem listSubs_has {b : Addr} : ∀ {i : Nat} {items : List Addr}, b ∈ items → ∃ sb, .ok sb ∈ listSubs i items ∧ sb.obj = .addr b
  | i, a :: as, h => by
    rcases List.mem_cons.1 h with rfl | h
    · exact ⟨_, by simp only [listSubs, List.mem_cons]; exact .inl rfl, rfl⟩
    · obtain ⟨sb, h1, h2⟩ := listSubs_has (i := i + 1) h
      exact ⟨sb, by simp only [listSubs, List.mem_cons]; exact .inr h1, h2⟩

theorem dictSubs_has {env : Env} {H : Heap} {k v : Addr} : ∀ {i : Nat} {es : List (Addr × Addr)}, (k, v) ∈ es →
    (∃ e, .error e ∈ dictSubs env H i es) ∨ ∃ sb, .ok sb ∈ dictSubs env H i es ∧ (sb.obj = .addr v ∨ sb.obj = .pair k v)
  | i, (k', v') :: es, h => by
    rcases List.mem_cons.1 h with h | h
    · cases h
      simp only [dictSubs, List.mem_cons]
      unfold dictSub
      cases hk : H[k]? with
      | none => exact .inl ⟨_, .inl rfl⟩
      | some o =>
        simp only []
        cases hs : keySlot env o with
        | error e => exact .inl ⟨_, .inl rfl⟩
        | ok r =>
          cases r with
          | none => exact .inr ⟨_, .inl rfl, .inr rfl⟩
          | some r => exact .inr ⟨_, .inl rfl, .inl rfl⟩
    · simp only [dictSubs, List.mem_cons]
      rcases dictSubs_has (env := env) (H := H) (i := i + 1) h with ⟨e, h⟩ | ⟨sb, h1, h2⟩
      · exact .inl ⟨e, .inr h⟩
      · exact .inr ⟨sb, .inr h1, h2⟩

theorem mapM_cast {H : Heap} {d : DT} : ∀ {items : List Addr} {vs}, items.mapM (castItem H d) = some vs → ∀ b ∈ items, ∃ o v, H[b]? = some o ∧ exactNum o = some v
  | [], _, _, b, hb => by simp at hb
  | a :: as, vs, h, b, hb => by
    rw [List.mapM_cons] at h
    cases h1 : castItem H d a with
    | none => simp [h1] at h
    | some v =>
      cases h2 : as.mapM (castItem H d) with
      | none => simp [h1, h2] at h
      | some vs' =>
        rcases List.mem_cons.1 hb with rfl | hb
        · unfold castItem at h1
          split at h1
          · next o ho =>
            cases he : exactNum o with
            | none => simp [he] at h1
            | some w => exact ⟨o, w, ho, he⟩
          · simp at h1
        · exact mapM_cast h2 b hb

theorem num_not_sought {H : Heap} {b : Addr} {o v} (h : H[b]? = some o) (hn : exactNum o = some v) : ¬ Sought H b := by
  rintro ⟨o', h', hc⟩
  obtain rfl : o = o' := by rw [h] at h'; exact Option.some.inj h'
  obtain ⟨cl, val⟩ := o
  rcases hc with rfl | rfl | rfl | rfl | rfl <;> simp [exactNum] at hn

/-- all the sub items of a list, tuple or dict are stored: its items are handled -/
theorem Holds.handled {c : DCtx} {s t : DState} (ha : Onward s t) {a b : Addr} {o : Obj} (ho : s.heap[a]? = some o) (h : Holds t.heap a b)
    {at' od subs} (hd : Head c.env s.heap (if o.cls = .dict then .dictlike else .listlike) o at' od subs)
    (hs : ∀ sub ∈ subs, ∃ sb, sub = .ok sb ∧ SubHandled t sb.obj) : Handled t b := by
  obtain ⟨o', ho', hb⟩ := h
  obtain rfl : o = o' := by rw [ha.heap _ _ ho] at ho'; exact Option.some.inj ho'
  rcases hb with ⟨hc, l, hv, hb⟩ | ⟨hc, es, k, hv, hb⟩
  · rw [if_neg (by rcases hc with hc | hc <;> rw [hc] <;> decide)] at hd
    cases hd with
    | str h1 => rw [hv] at h1; cases h1
    | bytes h1 => rw [hv] at h1; cases h1
    | seqNil h1 => rw [hv] at h1; cases h1; simp at hb
    | seqVec h1 h2 h3 h4 =>
      rw [hv] at h1; cases h1
      obtain ⟨p, v, e1, e2⟩ := mapM_cast h3 b hb
      have hlt : b < s.heap.length := (List.getElem?_eq_some_iff.1 e1).1
      exact ⟨ha.lt hlt, fun hq => absurd hq (num_not_sought (ha.heap _ _ e1) e2)⟩
    | seqItems h1 h2 h3 h4 =>
      rw [hv] at h1; cases h1
      obtain ⟨sb, e1, e2⟩ := listSubs_has (i := 0) hb
      obtain ⟨sb', e3, e4⟩ := hs _ e1
      cases e3
      rw [e2] at e4
      exact e4
  · rw [if_pos hc] at hd
    cases hd with
    | dict h1 =>
      rw [hv] at h1; cases h1
      rcases dictSubs_has (env := c.env) (H := s.heap) (i := 0) hb with ⟨e, h⟩ | ⟨sb, e1, e2⟩
      · obtain ⟨sb, h', _⟩ := hs _ h
        cases h'
      · obtain ⟨sb', e3, e4⟩ := hs _ e1
        cases e3
        rcases e2 with e2 | e2 <;> (rw [e2] at e4; exact e4)

/-- what a returning call of `_dump` has done -/
def Stores (P : Nat → Prop) (c : DCtx) (fuel : Nat) : Prop :=
  ∀ a p name attrs S s s', (∀ x, S x → x < s.heap.length) → Handling P S s → dumpNode c fuel a p name attrs s = (.ok (), s') → Handling P S s' ∧ Onward s s' ∧ Handled s' a

theorem subs_stored {c : DCtx} {fuel : Nat} (ih : Stores P c fuel) {n : NodeId} : ∀ (subs : Subs) {S : Addr → Prop} {s s' : DState}, (∀ x, S x → x < s.heap.length) → Handling P S s →
    M.forEach (fun sub => match sub with
          | .error e => M.throw e
          | .ok sub => do
            let b ← subAddr sub.obj
            dumpNode c fuel b n sub.name sub.attrs) subs s = (.ok (), s') →
    Handling P S s' ∧ Onward s s' ∧ ∀ sub ∈ subs, ∃ sb, sub = .ok sb ∧ SubHandled s' sb.obj
  | [], S, s, s', _, h, he => by
    simp [M.forEach] at he
    subst he
    exact ⟨h, .refl _, by simp⟩
  | sub :: subs, S, s, s', hS, h, he => by
    simp only [M.forEach] at he
    obtain ⟨_, s1, e1, e2⟩ := M.bind_ok_iff.1 he
    cases sub with
    | error e => simp at e1
    | ok sb =>
      simp only [] at e1
      obtain ⟨b, s2, e3, e4⟩ := M.bind_ok_iff.1 e1
      have key : Handling P S s2 ∧ Onward s s2 ∧ ∀ s1, Handling P S s1 → Onward s2 s1 → Handled s1 b → SubHandled s1 sb.obj := by
        cases ho : sb.obj with
        | addr x =>
          rw [ho] at e3
          simp [subAddr] at e3
          obtain ⟨rfl, rfl⟩ := e3
          exact ⟨h, .refl _, fun _ _ _ h => h⟩
        | pair k v =>
          rw [ho] at e3
          simp only [subAddr, dAlloc] at e3
          cases e3
          obtain ⟨g1, g2⟩ := h.grow [⟨.tuple, .seq [k, v]⟩]
          refine ⟨g1, g2, fun t ht hat hb => ?_⟩
          have hx : t.heap[s.heap.length]? = some ⟨.tuple, .seq [k, v]⟩ := hat.heap _ _ (by simp)
          obtain ⟨m, hm⟩ := hb.2 ⟨_, hx, .inr (.inl rfl)⟩
          refine (ht.memo _ _ hm).2.2 (fun hs => absurd (hS _ hs) (Nat.lt_irrefl _)) v ⟨_, hx, .inl ⟨.inr rfl, _, rfl, by simp⟩⟩
        | nest cl sh ls =>
          rw [ho] at e3
          simp only [subAddr] at e3
          cases e3
          obtain ⟨g1, g2⟩ := h.grow (nestBlock cl sh ls s.heap.length).1
          exact ⟨g1, g2, fun _ _ _ _ => trivial⟩
      obtain ⟨k1, k2, k3⟩ := key
      obtain ⟨i1, i2, i3⟩ := ih _ _ _ _ S _ _ (fun x hx => k2.lt (hS x hx)) k1 e4
      obtain ⟨j1, j2, j3⟩ := subs_stored ih subs (fun x hx => (k2.trans i2).lt (hS x hx)) i1 e2
      refine ⟨j1, (k2.trans i2).trans j2, ?_⟩
      intro sub hs
      rcases List.mem_cons.1 hs with rfl | hs
      · exact ⟨sb, rfl, (k3 _ i1 i2 i3).after j2⟩
      · exact j3 _ hs

theorem dumpNode_stores {c : DCtx} (hE : EnvOk P c.env) (hP : ProtOk P c.env) (hm : c.mgr.Dumps) : ∀ fuel, Stores P c fuel
  | 0 => fun a p name attrs S s s' _ _ he => by simp [dumpNode] at he
  | fuel + 1 => by
    intro a p name attrs S s s' hS h he
    simp only [dumpNode] at he
    rw [M.bind_of_ok (M.get_apply s)] at he
    cases hn : Assoc.get? s.memo a with
    | some n =>
      simp only [hn] at he
      have hk : ∀ {J}, Keeps (OnState J) (do let l ← mkDset [] p name (.ref n); setAttrs l attrs) := .bind mkDset_on fun _ _ => setAttrs_on
      obtain ⟨k1, k2, k3⟩ := plain_state hk s
      rw [he] at k1 k2 k3
      have hat := Onward.same k1 k2
      refine ⟨h.same k1 k2 (k3 ▸ h.reg), hat, hat.lt (h.memo a n hn).1, fun _ => hat.memo _ _ hn⟩
    | none =>
      simp only [hn] at he
      cases ho : s.heap[a]? with
      | none => simp [ho] at he
      | some o =>
        simp only [ho] at he
        obtain ⟨⟨n, subs, mem⟩, s1, e1, he⟩ := M.bind_ok_iff.1 he
        simp only at he
        obtain ⟨d1, d2, d3⟩ := dumpCreate_state (c := c) (o := o) (p := p) (name := name) hE hP h.reg
        rw [e1] at d1 d2 d3
        simp only at d1 d2 d3
        have hns : ¬ Salvaged o.cls := fun hs => by rw [dumpCreate_recovered hs h.reg hm] at e1; cases e1
        obtain ⟨_, s2, e2, he⟩ := M.bind_ok_iff.1 he
        obtain ⟨a1, a2, a3⟩ := plain_state (x := setAttrs n (attrs.filter fun p => p.1 ≠ "type")) setAttrs_on s1
        rw [e2] at a1 a2 a3
        simp only at a1 a2 a3
        obtain ⟨_, s3, e3, he⟩ := M.bind_ok_iff.1 he
        have h2 : Handling P S s2 := h.same (a1.trans d1) (a2.trans d2) (a3 ▸ d3)
        have hh2 : s2.heap = s.heap := a1.trans d1
        have hlt : a < s.heap.length := (List.getElem?_eq_some_iff.1 ho).1
        have key : s3.heap = s2.heap ∧ RegInv P s3.reg ∧ (∀ x m, Assoc.get? s3.memo x = some m → x = a ∨ Assoc.get? s2.memo x = some m) ∧
            (∀ x m, Assoc.get? s2.memo x = some m → ∃ m', Assoc.get? s3.memo x = some m') ∧ (mem = true → ∃ m, Assoc.get? s3.memo a = some m) := by
          cases mem with
          | true =>
            simp only [if_true] at e3
            cases e3
            refine ⟨rfl, h2.reg, fun x m e => ?_, fun x m e => ?_, fun _ => ⟨n, by simp⟩⟩
            · by_cases hx : x = a
              · exact .inl hx
              · exact .inr (by rw [← e]; simp only []; rw [Assoc.get?_put_ne _ _ (Ne.symm hx)])
            · by_cases hx : x = a
              · subst hx; exact ⟨n, by simp⟩
              · exact ⟨m, by rw [← e]; simp only []; rw [Assoc.get?_put_ne _ _ (Ne.symm hx)]⟩
          | false =>
            simp only [Bool.false_eq_true, if_false] at e3
            cases e3
            exact ⟨rfl, h2.reg, fun _ _ e => .inr e, fun _ m e => ⟨m, e⟩, by simp⟩
        obtain ⟨q1, q2, q3, q4, q5⟩ := key
        have on3 : Onward s2 s3 := ⟨fun i o e => by rw [q1]; exact e, q4⟩
        have on : Onward s s3 := (Onward.same hh2 (a2.trans d2)).trans on3
        have h3 : Handling P (fun x => S x ∨ x = a) s3 := by
          refine ⟨q2, fun x m hx => ?_⟩
          rcases q3 x m hx with rfl | hx
          · refine ⟨on.lt hlt, fun o' ho' => ?_, fun hs => absurd (.inr rfl) hs⟩
            rw [on.heap _ _ ho] at ho'
            cases ho'
            exact hns
          · obtain ⟨g1, g2, g3⟩ := h2.memo x m hx
            refine ⟨on3.lt g1, fun o' ho' => g2 o' (by rw [← q1]; exact ho'), fun hs b hb => ?_⟩
            exact (g3 (fun h => hs (.inl h)) b (by rw [← q1]; exact hb)).after on3
        obtain ⟨r1, r2, r3⟩ := subs_stored (dumpNode_stores hE hP hm fuel) subs
          (S := fun x => S x ∨ x = a) (fun x hx => hx.elim (fun hx => on.lt (hS x hx)) fun hx => hx ▸ on.lt hlt) h3 he
        have ont : Onward s s' := on.trans r2
        have hit : Handled s' a := by
          refine ⟨ont.lt hlt, fun ⟨o', ho', hq⟩ => ?_⟩
          rw [ont.heap _ _ ho] at ho'
          cases ho'
          have hc : o.cls = .list ∨ o.cls = .tuple ∨ o.cls = .dict := by
            rcases hq with h | h | h | h
            · exact .inl h
            · exact .inr (.inl h)
            · exact .inr (.inr h)
            · exact absurd h hns
          obtain ⟨m, hm'⟩ := q5 (dumpCreate_native hE hm hc h.reg e1).1
          exact r2.memo _ _ hm'
        refine ⟨⟨r1.reg, fun x m hx => ?_⟩, ont, hit⟩
        obtain ⟨g1, g2, g3⟩ := r1.memo x m hx
        refine ⟨g1, g2, fun hs b hb => ?_⟩
        by_cases hxa : x = a
        · subst hxa
          obtain ⟨o', ho', hq⟩ := hb.sought
          rw [ont.heap _ _ ho] at ho'
          cases ho'
          have hc : o.cls = .list ∨ o.cls = .tuple ∨ o.cls = .dict := by
            rcases hq with h | h | h | h
            · exact .inl h
            · exact .inr (.inl h)
            · exact .inr (.inr h)
            · exact absurd h hns
          obtain ⟨_, at', od, hd⟩ := dumpCreate_native hE hm hc h.reg e1
          exact hb.handled ont ho hd r3
        · exact g3 (fun h => h.elim hs hxa) b hb

/-- a returning call of `_dump` has met nothing that was recovered -/
theorem dumpNode_salvaged {c : DCtx} (hE : EnvOk P c.env) (hP : ProtOk P c.env) (hm : c.mgr.Dumps) {fuel a p name attrs} {s s' : DState}
    (hr : RegInv P s.reg) (h0 : s.memo = []) (he : dumpNode c fuel a p name attrs s = (.ok (), s')) {b : Addr} (hb : HeldIn s.heap a b) {o : Obj} (ho : s.heap[b]? = some o) :
    ¬ Salvaged o.cls := by
  obtain ⟨h1, h2, h3⟩ := dumpNode_stores hE hP hm fuel a p name attrs (fun _ => False) s s' (fun _ h => h.elim)
    ⟨hr, fun a n h => by rw [h0] at h; simp [Assoc.get?] at h⟩ he
  intro hs
  have : ∀ {x y}, HeldIn s.heap x y → y = b → Handled s' x → False := by
    intro x y hxy
    induction hxy with
    | here x =>
      rintro rfl hx
      obtain ⟨m, hm'⟩ := hx.2 ⟨o, h2.heap _ _ ho, .inr (.inr (.inr hs))⟩
      exact (h1.memo _ _ hm').2.1 o (h2.heap _ _ ho) hs
    | under k1 k2 ih =>
      intro hy hx
      obtain ⟨o', k3, k4⟩ := k1
      have k5 : Holds s'.heap _ _ := ⟨o', h2.heap _ _ k3, k4⟩
      obtain ⟨m, hm'⟩ := hx.2 k5.sought
      exact ih hy ((h1.memo _ _ hm').2.2 id _ k5)
  exact this hb rfl h3

/-- a returning `dump` has met nothing that was recovered -/
theorem dumpTop_salvaged {a : DumpArgs} {s s' : Session} (hE : EnvOk P a.env) (hP : ProtOk P a.env) (hreg : RegInv P s.reg) (hT : Tree s.store)
    (ho : OptsOk a s.store) (h : dumpTop a s = (.ok (), s')) {b : Addr} (hb : HeldIn a.heap a.obj b) {o : Obj} (hbo : a.heap[b]? = some o) : ¬ Salvaged o.cls := by
  obtain ⟨c, g, st, sd, hc, _⟩ := dumpTop_call hT ho h
  obtain ⟨henv, hmgr, _, _, _, _, _, _, _, hdn⟩ := hc
  obtain ⟨env, mgr, kw, T⟩ := c
  dsimp only at henv hmgr
  subst henv
  exact dumpNode_salvaged (c := ⟨a.env, mgr, kw, T⟩) hE hP hmgr.dumps hreg rfl hdn hb hbo

end
end Verif
