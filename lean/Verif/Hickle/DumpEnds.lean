import Verif.Hickle.DumpState
import Verif.Hickle.Stored
/-!
# A dump needs no more nested calls than there are objects

`_dump` calls itself once per level.  Every object that has sub items is put into the memo before its sub items are dumped, so no chain of nested
calls visits it twice, even if the objects refer to each other in cycles.
-/
namespace Verif

/-- the computation does not run out of stack -/
def NoRec {σ α : Type} (x : M σ α) : Prop := ∀ s, (x s).1 ≠ .error .recursionError

namespace NoRec
variable {σ α β : Type}

theorem bind {x : M σ α} {f : α → M σ β} (hx : NoRec x) (hf : ∀ a, NoRec (f a)) : NoRec (x >>= f) := by
  intro s
  rw [M.bind_apply]
  cases h : x s with
  | mk r s1 =>
    cases r with
    | ok a => exact hf a s1
    | error e =>
      simp only []
      intro he
      have := hx s
      rw [h] at this
      simp at he
      subst he
      exact this rfl

theorem pure (a : α) : NoRec (Pure.pure a : M σ α) := by intro s; simp
theorem throw {e : PyErr} (he : e ≠ .recursionError) : NoRec (M.throw e : M σ α) := by intro s; simpa using he
theorem modify (f : σ → σ) : NoRec (M.modify f) := by intro s; simp
theorem get : NoRec (M.get : M σ σ) := by intro s; simp
theorem attempt (x : M σ α) : NoRec (M.attempt x) := by intro s; simp
theorem ofExcept {x : Except PyErr α} (h : x ≠ .error .recursionError) : NoRec (M.ofExcept x : M σ α) := by intro s; simpa using h
theorem forEach {f : α → M σ Unit} {xs : List α} (h : ∀ x ∈ xs, NoRec (f x)) : NoRec (M.forEach f xs) := by
  induction xs with
  | nil => exact .pure ()
  | cons x xs ih => exact .bind (h x (by simp)) fun _ => ih fun y hy => h y (by simp [hy])
end NoRec

theorem Store.create_noRec {s : Store} {p name body e} (h : s.create p name body = .error e) : e ≠ .recursionError := by
  unfold Store.create at h
  repeat' split at h
  all_goals (simp at h; try (subst h; simp))

theorem checkKw_noRec {kw d e} (h : checkKw kw d = .error e) : e ≠ .recursionError := by
  unfold checkKw at h
  repeat' split at h
  all_goals (simp at h; try (subst h; simp))

theorem NoRec.mkDset (kw parent name d) : NoRec (mkDset kw parent name d) := by
  intro s h
  unfold Verif.mkDset at h
  split at h
  · next hk => simp at h; exact checkKw_noRec hk h
  · split at h
    · next hk => simp at h; exact Store.create_noRec hk h
    · simp at h

theorem NoRec.mkGroup (parent name) : NoRec (mkGroup parent name) := by
  intro s h
  unfold Verif.mkGroup at h
  split at h
  · next hk => simp at h; exact Store.create_noRec hk h
  · simp at h

theorem itemLoop_noRec {env h cur as e} (hl : itemLoop env h cur as = .error e) : e ≠ .recursionError := by
  induction as generalizing cur with
  | nil => simp [itemLoop] at hl
  | cons a as ih =>
    simp only [itemLoop] at hl
    split at hl
    · next e' hs =>
      simp at hl; subst hl
      unfold itemStep at hs
      split at hs
      · next hd =>
        simp at hs; subst hs
        unfold hasDims at hd
        repeat' split at hd
        all_goals (simp at hd; try (subst hd; simp))
      · simp at hs
      · repeat' split at hs
        all_goals (simp at hs; try (subst hs; simp))
    · simp at hl
    · exact ih hl

theorem checkItems_noRec {env h items e} (hl : checkItems env h items = .error e) : e ≠ .recursionError := by
  unfold checkItems at hl
  repeat' split at hl
  all_goals first | exact itemLoop_noRec hl | (simp at hl; done) | (simp at hl; subst hl; simp)

theorem NoRec.createItems (c h items dt parent name) : NoRec (createItems c h items dt parent name) := by
  unfold Verif.createItems
  split
  · exact .bind (.mkDset _ _ _ _) fun n => by
      split
      · exact .pure _
      · exact .throw (by decide)
  · exact .throw (by decide)
  · exact .bind (.mkGroup _ _) fun n => .bind (.modify _) fun _ => .pure _

theorem NoRec.createPickled (c o parent name) : NoRec (createPickled c o parent name) := by
  unfold Verif.createPickled
  repeat' split
  · exact .mkDset _ _ _ _
  · exact .throw (by decide)
  · exact .throw (by decide)

theorem NoRec.createListlike (c h o parent name) : NoRec (createListlike c h o parent name) := by
  unfold Verif.createListlike
  repeat' split
  all_goals first
    | exact .throw (by decide)
    | exact .createItems _ _ _ _ _ _
    | exact .bind (.mkDset _ _ _ _) fun n => .bind (.modify _) fun _ => .pure _
    | exact .bind (.mkDset _ _ _ _) fun n => .pure _
    | exact .throw (checkItems_noRec (by assumption))

theorem NoRec.createRows (c n sh ls parent name) : NoRec (createRows c n sh ls parent name) := by
  unfold Verif.createRows
  split
  · exact .throw (by decide)
  · split
    · exact .bind (.mkDset _ _ _ _) fun n => .pure _
    · exact .bind (.mkGroup _ _) fun n => .bind (.modify _) fun _ => .pure _

theorem NoRec.createNpArray (c h o parent name) : NoRec (createNpArray c h o parent name) := by
  have dt : ∀ {x d}, NoRec x → NoRec (withDtype x d) := fun hx => .bind hx fun r => .bind (.modify _) fun _ => .pure _
  unfold Verif.createNpArray
  split
  · exact dt (.bind (.mkDset _ _ _ _) fun n => .pure _)
  · refine dt ?_
    unfold createStrings
    repeat' split
    all_goals first
      | exact .throw (by decide)
      | exact .createRows _ _ _ _ _ _
      | exact .bind (.mkDset _ _ _ _) fun n => .pure _
  · refine dt ?_
    unfold createObjects
    repeat' split
    all_goals first
      | exact .throw (by decide)
      | exact .createRows _ _ _ _ _ _
      | exact .createListlike _ _ _ _ _
      | exact .bind (.mkGroup _ _) fun n => .pure _
  · exact .throw (by decide)

theorem createFn_noRec {c fn h o parent name} : NoRec (createFn c fn h o parent name) := by
  unfold createFn
  split
  · refine .bind ?_ fun n => .pure _
    unfold createScalar
    repeat' split
    all_goals first | exact .mkDset _ _ _ _ | exact .throw (by decide)
  · exact .bind (.mkDset _ _ _ _) fun n => .pure _
  · exact .createListlike _ _ _ _ _
  · unfold createSetlike
    repeat' split
    all_goals first
      | exact .throw (by decide)
      | exact .createItems _ _ _ _ _ _
      | exact .bind (.mkDset _ _ _ _) fun n => .pure _
      | exact .throw (checkItems_noRec (by assumption))
  · unfold createDictlike
    split
    · exact .bind (.mkGroup _ _) fun n => .pure _
    · exact .throw (by decide)
  · refine .bind ?_ fun n => .pure _
    unfold createNpScalar
    split
    · exact .bind (.mkDset _ _ _ _) fun n => .bind (.modify _) fun _ => .pure _
    · exact .throw (by decide)
  · exact .createNpArray _ _ _ _ _
  · unfold createMasked
    split
    · exact .bind (.mkGroup _ _) fun n => .bind (.modify _) fun _ => .pure _
    · exact .throw (by decide)
  · unfold createSparse
    split
    · split
      · exact .throw (by decide)
      · exact .bind (.mkGroup _ _) fun n => .pure _
    · exact .throw (by decide)
  · exact .bind (.createPickled _ _ _ _) fun n => .pure _
  all_goals exact .throw (by decide)

theorem setAttrs_noRec {n l} : NoRec (setAttrs n l) := .forEach fun _ _ => .modify _

theorem storeType_noRec {c n cls b} : NoRec (storeType c n cls b) := by
  unfold storeType
  split
  · exact .pure _
  · refine .bind ?_ fun _ => .modify _
    unfold typeEntryNode
    refine .bind .get fun s => ?_
    split
    · exact .pure _
    · split
      · exact .throw (by decide)
      · split
        · exact .throw (by decide)
        · split
          · exact .throw (by decide)
          · refine .bind (.mkDset _ _ _ _) fun _ => .bind ?_ fun _ => .bind (.modify _) fun _ => .bind (.modify _) fun _ => .pure _
            unfold baseEntry
            refine .bind .get fun s => ?_
            split
            · exact .pure _
            · exact .bind (.mkDset _ _ _ _) fun _ => .bind (.modify _) fun _ => .pure _

variable {P : Nat → Prop}

theorem dumpCreate_noRec {c : DCtx} {o : Obj} {parent name} (hE : EnvOk P c.env) (hm : c.mgr.Dumps) (hc : GoodCls P c.env o.cls) {s : DState} (hr : RegInv P s.reg) :
    (dumpCreate c o parent name s).1 ≠ .error .recursionError := by
  obtain ⟨r', hl, _⟩ := loadLoader_spec (m := c.mgr) hE hm hc none hr
  unfold dumpCreate
  have hon : onReg (loadLoader c.env c.mgr o.cls none) s = (.ok (expected c.env o.cls), { s with reg := r' }) := by
    unfold onReg; rw [hl]
  rw [M.bind_of_ok hon, show expected c.env o.cls = ((expected c.env o.cls).1, (expected c.env o.cls).2) from rfl]
  dsimp only
  rw [M.bind_of_ok (M.get_apply _), M.bind_of_ok (M.attempt_apply _ _)]
  have hn := createFn_noRec (c := c) (fn := (expected c.env o.cls).2.fn) (h := s.heap) (o := o) (parent := parent) (name := name) { s with reg := r' }
  simp only
  cases hcf : createFn c (expected c.env o.cls).2.fn s.heap o parent name { s with reg := r' } with
  | mk r s2 =>
    rw [hcf] at hn
    cases r with
    | ok r => exact NoRec.bind storeType_noRec (fun _ => .pure _) s2
    | error e =>
      simp only []
      split
      · exact NoRec.bind (.createPickled _ _ _ _) (fun _ => .pure _) s2
      · intro he; apply hn; simp at he; subst he; rfl

/-- an entry whose objects are not put into the memo has no sub items -/
theorem createFn_leaf {c : DCtx} {o : Obj} {parent name} (hE : EnvOk P c.env) (hm : c.mgr.Dumps) (hc : GoodCls P c.env o.cls) {s s1 : DState} (hr : RegInv P s.reg)
    {n subs} (h : dumpCreate c o parent name s = (.ok (n, subs, false), s1)) : subs = [] := by
  obtain ⟨r', hl, _⟩ := loadLoader_spec (m := c.mgr) hE hm hc none hr
  unfold dumpCreate at h
  have hon : onReg (loadLoader c.env c.mgr o.cls none) s = (.ok (expected c.env o.cls), { s with reg := r' }) := by
    unfold onReg; rw [hl]
  rw [M.bind_of_ok hon, show expected c.env o.cls = ((expected c.env o.cls).1, (expected c.env o.cls).2) from rfl] at h
  dsimp only at h
  rw [M.bind_of_ok (M.get_apply _), M.bind_of_ok (M.attempt_apply _ _)] at h
  simp only at h
  cases hcf : createFn c (expected c.env o.cls).2.fn s.heap o parent name { s with reg := r' } with
  | mk r s2 =>
    rw [hcf] at h
    cases r with
    | ok r =>
      simp only [] at h
      obtain ⟨_, s3, _, h⟩ := M.bind_ok_iff.1 h
      simp only [M.pure_apply, Prod.mk.injEq, Except.ok.injEq] at h
      obtain ⟨⟨rfl, rfl, hmem⟩, rfl⟩ := h
      obtain ⟨at', od, _, _, hd⟩ := createFn_ok hcf
      have hfn : (expected c.env o.cls).2.fn ∉ [DumpFn.listlike, .setlike, .dictlike, .npArray, .npMasked, .sparse] := by
        have key : ∀ l : List Cls, ∀ e, firstStd l = some e → e.memoise = false → e.fn ∉ [DumpFn.listlike, .setlike, .dictlike, .npArray, .npMasked, .sparse] := by
          intro l
          induction l with
          | nil => intro e he; simp [firstStd] at he
          | cons k ks ih =>
            intro e he hm
            simp only [firstStd] at he
            cases hk : stdReg k with
            | none => rw [hk] at he; exact ih e he hm
            | some pe =>
              rw [hk] at he
              simp at he
              subst he
              cases k <;> simp [stdReg] at hk <;> subst hk <;> simp at hm ⊢
        unfold expected at hmem ⊢
        split
        · next e he => rw [he] at hmem; exact key _ _ he hmem
        · simp
      generalize (expected c.env o.cls).2.fn = fn at hd hfn
      generalize r.2 = subs at hd ⊢
      cases hd with
      | seqItems | setItems | dict | rows | oone | masked | sparse | oseq => simp at hfn
      | _ => rfl
    | error e =>
      simp only [] at h
      split at h
      · obtain ⟨_, s3, _, h⟩ := M.bind_ok_iff.1 h
        simp only [M.pure_apply, Prod.mk.injEq, Except.ok.injEq] at h
        exact h.1.2.1.symm
      · simp at h

/-- number of objects of the program that were not dumped yet -/
def left (N : Nat) (memo : List (Addr × NodeId)) : Nat := (List.range N).countP fun b => (Assoc.get? memo b).isNone

theorem left_le {N : Nat} {m m' : List (Addr × NodeId)} (h : ∀ b, (Assoc.get? m b).isSome = true → (Assoc.get? m' b).isSome = true) : left N m' ≤ left N m := by
  unfold left
  apply List.countP_mono_left
  intro b _ hb
  have := h b
  cases h1 : Assoc.get? m b with
  | none => rfl
  | some x => rw [h1] at this; have := this rfl; simp at hb; rw [hb] at this; simp at this

theorem left_lt {N : Nat} {m m' : List (Addr × NodeId)} (h : ∀ b, (Assoc.get? m b).isSome = true → (Assoc.get? m' b).isSome = true) {a : Nat} (ha : a < N)
    (h1 : Assoc.get? m a = none) (h2 : (Assoc.get? m' a).isSome = true) : left N m' < left N m := by
  unfold left
  induction N with
  | zero => omega
  | succ N ih =>
    rw [List.range_succ, List.countP_append, List.countP_append, List.countP_singleton, List.countP_singleton]
    have hle := left_le (N := N) h
    unfold left at hle
    by_cases he : a = N
    · subst he
      have : (Assoc.get? m' a).isNone = false := by simpa using h2
      simp [h1, this]; omega
    · have := ih (by omega)
      have hN : (if (Assoc.get? m' N).isNone = true then 1 else 0) ≤ (if (Assoc.get? m N).isNone = true then 1 else 0) := by
        have := h N
        cases q : Assoc.get? m' N with
        | some x => simp
        | none => rw [q] at this; cases q2 : Assoc.get? m N with
          | none => simp
          | some y => rw [q2] at this; simp at this
      omega

/-- objects of a running dump are only added; the objects memoised at the start still are -/
def Run (P : Nat → Prop) (H : Heap) (m0 : List (Addr × NodeId)) (h : Heap) (m : List (Addr × NodeId)) (r : Registry) : Prop :=
  H <+: h ∧
  (∀ b, (Assoc.get? m0 b).isSome = true → (Assoc.get? m b).isSome = true) ∧ RegInv P r

theorem Run.memo {H : Heap} {m0 h m r} (hr : Run P H m0 h m r) (a : Addr) (n : NodeId) : Run P H m0 h (Assoc.put m a n) r := by
  obtain ⟨h1, h2, h3⟩ := hr
  refine ⟨h1, fun b hb => ?_, h3⟩
  by_cases he : a = b
  · subst he; rw [Assoc.get?_put_self]; rfl
  · rw [Assoc.get?_put_ne _ _ he]; exact h2 b hb

variable {c : DCtx} {H : Heap}

theorem Run.stable (hE : EnvOk P c.env) (hP : ProtOk P c.env) {m0} : RegStable c.env c.mgr (Run P H m0) := by
  intro h m r cls ⟨h1, h2, h3⟩
  exact ⟨h1, h2, (loadLoaderAux_keeps hE hP cls none (cls.mro c.env.u) r h3).1⟩

theorem dumpNode_run (hE : EnvOk P c.env) (hP : ProtOk P c.env) {m0} (fuel : Nat) (a p name attrs) :
    Keeps (OnState (Run P H m0)) (dumpNode c fuel a p name attrs) :=
  dumpNode_on (Run.stable hE hP) (fun _ _ _ a n h => h.memo a n) (fun _ _ _ _ h => ⟨h.1.trans (List.prefix_append _ _), h.2⟩) fuel a p name attrs

/-- a condition holds before each step and the steps do not run out of stack -/
theorem forEach_noRec {σ α : Type} {I : σ → Prop} {f : α → M σ Unit} {xs : List α} (hk : ∀ x ∈ xs, Keeps I (f x))
    (hn : ∀ x ∈ xs, ∀ s, I s → (f x s).1 ≠ .error .recursionError) : ∀ s, I s → (M.forEach f xs s).1 ≠ .error .recursionError := by
  induction xs with
  | nil => intro s _; simp [M.forEach]
  | cons x xs ih =>
    intro s hs
    have h1 := hn x (by simp) s hs
    have h2 := (hk x (by simp) s hs).1
    simp only [M.forEach]
    cases hx : f x s with
    | mk r s1 =>
      rw [hx] at h1 h2
      cases r with
      | ok u => rw [M.bind_of_ok hx]; exact ih (fun y hy => hk y (by simp [hy])) (fun y hy => hn y (by simp [hy])) s1 h2
      | error e => rw [M.bind_of_error hx]; exact h1

/-- objects made for a dump have classes hickle knows -/
theorem TempCls.good {c : Cls} (h : TempCls c) (P : Nat → Prop) (env : Env) : GoodCls P env c := by
  intro k hk
  rcases h with rfl | rfl | rfl | rfl | rfl | rfl <;> simp only [Cls.mro, List.mem_cons, List.not_mem_nil, or_false] at hk <;>
    (rcases hk with rfl | rfl | rfl | rfl | rfl <;> exact ⟨trivial, .inl ⟨_, rfl⟩⟩)

theorem dumpNode_ends (hE : EnvOk P c.env) (hP : ProtOk P c.env) (hm : c.mgr.Dumps) (hw : Closed H)
    (hcls : ∀ (x : Addr) (o : Obj), H[x]? = some o → GoodCls P c.env o.cls) {D : Nat} (hD : ∀ (x : Addr) (o : Obj), H[x]? = some o → o.val.depth ≤ D)
    (fuel : Nat) : ∀ a p name attrs s d,
    OnState (Run P H s.memo) s → Made s.heap H.length (fun _ => True) d a → (D + 1) * left H.length s.memo + (if a < H.length then 0 else d) + 1 ≤ fuel →
    (dumpNode c fuel a p name attrs s).1 ≠ .error .recursionError := by
  induction fuel with
  | zero => intro a p name attrs s d _ _ h; omega
  | succ fuel ih =>
    intro a p name attrs s d hs hb hf
    simp only [dumpNode]
    rw [M.bind_of_ok (M.get_apply s)]
    cases hmemo : Assoc.get? s.memo a with
    | some n => exact NoRec.bind (.mkDset _ _ _ _) (fun _ => setAttrs_noRec) s
    | none =>
      simp only []
      cases ho : s.heap[a]? with
      | none => simp
      | some o =>
        simp only []
        have hgc : GoodCls P c.env o.cls := by
          cases hb with
          | old ha =>
            obtain ⟨x, hx⟩ := hs.1
            rw [← hx, List.getElem?_append_left ha] at ho; exact hcls a o ho
          | new _ h2 _ h4 => rw [ho] at h2; cases h2; exact h4.good _ _
        have hnr := dumpCreate_noRec (parent := p) (name := name) hE hm hgc hs.2.2
        have hkeep := (dumpCreate_on (o := o) (p := p) (name := name) (Run.stable (H := s.heap) (m0 := s.memo) hE hP) s ⟨List.prefix_rfl, fun _ h => h, hs.2.2⟩).1
        cases hc : dumpCreate c o p name s with
        | mk r s1 =>
          rw [hc] at hnr hkeep
          cases r with
          | error e => rw [M.bind_of_error hc]; intro he; apply hnr; simp at he; subst he; rfl
          | ok r =>
            obtain ⟨n, subs, mem⟩ := r
            rw [M.bind_of_ok hc]
            simp only [] at hkeep ⊢
            have hsub := dumpCreate_subs hc
            have hsa : ∃ s2, setAttrs n (attrs.filter fun p => p.1 ≠ "type") s1 = (.ok (), s2) ∧ OnState (Run P s.heap s.memo) s2 := by
              have h1 := (setAttrs_on (J := Run P s.heap s.memo) (n := n) (l := attrs.filter fun p => p.1 ≠ "type") s1 hkeep).1
              have h2 : ∀ l : Attrs, ∀ s, ∃ s2, setAttrs n l s = (.ok (), s2) := by
                intro l
                induction l with
                | nil => exact fun s => ⟨s, rfl⟩
                | cons x l ih => exact fun s => ih _
              obtain ⟨s2, h2⟩ := h2 (attrs.filter fun p => p.1 ≠ "type") s1
              rw [h2] at h1
              exact ⟨s2, h2, h1⟩
            obtain ⟨s2, e2, hs2⟩ := hsa
            rw [M.bind_of_ok e2]
            cases mem with
            | false =>
              rw [createFn_leaf hE hm hgc hs.2.2 hc]
              exact NoRec.bind (.pure _) (fun _ => .pure _) s2
            | true =>
              simp only [if_true]
              have hs3 := hs2.memo a n
              rw [M.bind_of_ok (M.modify_apply _ s2)]
              have hlow : left H.length (Assoc.put s2.memo a n) ≤ left H.length s.memo := left_le hs3.2.1
              have hlow2 : a < H.length → left H.length (Assoc.put s2.memo a n) < left H.length s.memo :=
                fun ha => left_lt hs3.2.1 ha hmemo (by rw [Assoc.get?_put_self]; rfl)
              have hstart : OnState (Run P s.heap (Assoc.put s2.memo a n)) { s2 with memo := Assoc.put s2.memo a n } := ⟨hs3.1, fun _ h => h, hs3.2.2⟩
              refine forEach_noRec (I := OnState (Run P s.heap (Assoc.put s2.memo a n))) ?_ ?_ _ hstart
              · intro sub hmem
                rcases hsub sub hmem with rfl | rfl | ⟨sb, rfl, hso⟩
                · exact .throw _
                · exact .throw _
                · refine .bind (Q := fun _ => True) ?_ fun b _ => dumpNode_run hE hP fuel b _ _ _
                  intro t ht
                  obtain ⟨b, blk, e, _⟩ := subAddr_made hw hD hs.1 ho hb hso ht.1
                  rw [e]
                  exact ⟨⟨ht.1.trans (List.prefix_append _ _), ht.2⟩, fun _ _ => trivial⟩
              · intro sub hmem t ht
                rcases hsub sub hmem with rfl | rfl | ⟨sb, rfl, hso⟩
                · simp
                · simp
                · have hlt : left H.length t.memo ≤ left H.length (Assoc.put s2.memo a n) := left_le ht.2.1
                  obtain ⟨b, blk, e, hbb⟩ := subAddr_made hw hD hs.1 ho hb hso ht.1
                  replace hbb := hbb (fun _ => True) (fun _ _ _ => trivial) (fun _ _ _ => trivial)
                  simp only []
                  rw [M.bind_of_ok e]
                  refine ih b _ _ _ _ _ ⟨(hs.1.trans ht.1).trans (List.prefix_append _ _), fun _ h => h, ht.2.2⟩ hbb ?_
                  simp only []
                  by_cases ha : a < H.length
                  · have := hlow2 ha
                    have h1 : (D + 1) * (left H.length t.memo + 1) ≤ (D + 1) * left H.length s.memo := Nat.mul_le_mul_left _ (by omega)
                    rw [Nat.mul_succ] at h1
                    rw [if_pos ha]
                    split <;> omega
                  · have h1 : (D + 1) * left H.length t.memo ≤ (D + 1) * left H.length s.memo := Nat.mul_le_mul_left _ (by omega)
                    rw [if_neg ha] at hf ⊢
                    have : d ≠ 0 := by
                      rintro rfl
                      cases hb with
                      | old h => exact ha h
                    split <;> omega

theorem Store.mkPath_noRec (xs : List PyStr) : ∀ {S : Store} {n e}, S.mkPath n xs = .error e → e ≠ .recursionError := by
  induction xs with
  | nil => intro S n e h; simp [Store.mkPath] at h
  | cons x xs ih =>
    intro S n e h
    simp only [Store.mkPath] at h
    split at h
    · simp at h; subst h; simp
    · split at h
      · exact ih h
      · split at h
        · next hc => simp at h; subst h; exact Store.create_noRec hc
        · exact ih h

theorem dumpGroup_noRec (path) : NoRec (dumpGroup path) := by
  intro s h
  unfold dumpGroup at h
  split at h
  · next hp =>
    unfold pathOk at hp
    repeat' split at hp
    all_goals (simp at hp; try (subst hp; simp at h))
  · split at h
    · split at h <;> simp at h
    · split at h
      · next hc => simp at h; subst h; exact Store.mkPath_noRec _ hc rfl
      · simp at h

theorem setOptions_noRec (g os) : ∀ maps, NoRec (setOptions g os maps) := by
  induction os with
  | nil => exact fun maps => .pure _
  | cons o os ih =>
    intro maps
    obtain ⟨k, on⟩ := o
    simp only [setOptions]
    split
    · refine .bind (.modify _) fun _ => ?_
      split
      · exact ih _
      · exact .throw (by decide)
    · exact ih _

theorem setOptions_ok {g} (os : List (String × Bool)) (hos : ("hickle-4.x", true) ∉ os) : ∀ {s maps r s'},
    (Manager.mk maps).Ok → setOptions g os maps s = (.ok r, s') → (Manager.mk r).Ok := by
  induction os with
  | nil =>
    intro s maps r s' hm he
    simp only [setOptions] at he
    obtain ⟨rfl, rfl⟩ : maps = r ∧ s = s' := by simpa using he
    exact hm
  | cons o os ih =>
    obtain ⟨k, on⟩ := o
    have hos' : ("hickle-4.x", true) ∉ os := fun h => hos (by simp [h])
    intro s maps r s' hm he
    cases on with
    | false => simp only [setOptions, Bool.false_eq_true, if_false] at he; exact ih hos' hm he
    | true =>
      simp only [setOptions, if_true] at he
      obtain ⟨_, s1, _, he⟩ := M.bind_ok_iff.1 he
      by_cases hv : validOption k = true
      · have hk : k = "custom" := by
          simp only [validOption, Bool.or_eq_true, decide_eq_true_eq] at hv
          rcases hv with hv | hv
          · exact hv
          · subst hv; simp at hos
        subst hk
        rw [if_pos hv] at he
        refine ih hos' ?_ he
        obtain ⟨pre, p1, p2⟩ := hm
        exact ⟨some "custom" :: pre, by simp only at p1 ⊢; rw [p1]; rfl, by simpa using p2⟩
      · rw [if_neg hv] at he
        simp at he

theorem setOptions_dumps {g} (os : List (String × Bool)) : ∀ {s maps r s'},
    (Manager.mk maps).Dumps → setOptions g os maps s = (.ok r, s') → (Manager.mk r).Dumps := by
  induction os with
  | nil =>
    intro s maps r s' hm he
    simp only [setOptions] at he
    obtain ⟨rfl, rfl⟩ : maps = r ∧ s = s' := by simpa using he
    exact hm
  | cons o os ih =>
    obtain ⟨k, on⟩ := o
    intro s maps r s' hm he
    cases on with
    | false => simp only [setOptions, Bool.false_eq_true, if_false] at he; exact ih hm he
    | true =>
      simp only [setOptions, if_true] at he
      obtain ⟨_, s1, _, he⟩ := M.bind_ok_iff.1 he
      by_cases hv : validOption k = true
      · rw [if_pos hv] at he
        refine ih ?_ he
        simp only [validOption, Bool.or_eq_true, decide_eq_true_eq] at hv
        obtain ⟨pre, p1, p2⟩ := hm
        refine ⟨some k :: pre, by simp only at p1 ⊢; rw [p1]; rfl, fun o ho => ?_⟩
        rcases List.mem_cons.1 ho with rfl | ho
        · rcases hv with rfl | rfl
          · exact .inl rfl
          · exact .inr rfl
        · exact p2 o ho
      · rw [if_neg hv] at he
        simp at he

theorem refEnter_noRec (env g) : NoRec (refEnter env g) := by
  unfold refEnter
  refine .bind .get fun s => ?_
  split
  · exact .throw (by decide)
  · refine .bind ?_ fun m => .bind (.modify _) fun _ => .pure _
    have hent : ∀ (S : Store) ps m e, refEntries env S m ps = .error e → e ≠ .recursionError := by
      intro S ps
      induction ps with
      | nil => intro m e h; simp [refEntries] at h
      | cons p ps ih =>
        intro m e h
        simp only [refEntries] at h
        split at h
        · next hr =>
          simp at h; subst h
          unfold refEntry at hr
          repeat' split at hr
          all_goals (simp at hr; try (subst hr; simp))
        · exact ih _ _ h
    intro s h
    unfold refInit at h
    split at h
    · simp at h
    · split at h
      · split at h
        · split at h
          · next hc => simp at h; subst h; exact Store.create_noRec hc rfl
          · simp at h
        · simp at h
      · split at h
        · simp at h
        · split at h
          · exact hent _ _ _ _ h rfl
          · simp at h

/-- `dump` never needs more than one nested call of `_dump` per object and per level of the objects made for it -/
theorem dumpTop_ends {a : DumpArgs} {s : Session} (hE : EnvOk P a.env) (hP : ProtOk P a.env) (hreg : RegInv P s.reg) (hw : Closed a.heap)
    (hcls : ∀ (x : Addr) (o : Obj), a.heap[x]? = some o → GoodCls P a.env o.cls) {os} (hos : a.options = some os)
    (ho : a.obj < a.heap.length) {D : Nat} (hD : ∀ (x : Addr) (o : Obj), a.heap[x]? = some o → o.val.depth ≤ D)
    (hf : (D + 1) * a.heap.length + 1 ≤ a.fuel) : (dumpTop a s).1 ≠ .error .recursionError := by
  unfold dumpTop
  rw [M.bind_of_ok (M.get_apply s)]
  cases hwr : s.writable with
  | false => simp
  | true =>
    simp only [Bool.not_true, Bool.false_eq_true, if_false]
    have hn := dumpGroup_noRec a.path s
    cases hd : dumpGroup a.path s with
    | mk x s1 =>
      cases x with
      | error e => rw [M.bind_of_error hd]; rw [hd] at hn; intro he; apply hn; simp at he; subst he; rfl
      | ok g =>
        obtain ⟨ht, hs1⟩ := dumpGroup_ok hd
        rw [M.bind_of_ok hd]
        have hroot : MayRoot s.store a.path g := ht.place
        have hplace : s.store.length ≤ g ∨ OnPath s.store a.path g := hroot.imp id And.left
        have h1 : Busy P a.path s.store true s.ldr s.ref s1 := by
          rw [hs1]; exact ⟨ht.chg, hreg, hwr, rfl, rfl⟩
        have h2 := (sSetAttr_keeps (k := "HICKLE_VERSION") (v := .bytes hickleVersion) hroot (.inl rfl) s1 h1).1
        rw [M.bind_of_ok (show sSetAttr g "HICKLE_VERSION" (.bytes hickleVersion) s1 =
          (.ok (), (sSetAttr g "HICKLE_VERSION" (.bytes hickleVersion) s1).2) from rfl)]
        generalize (sSetAttr g "HICKLE_VERSION" (.bytes hickleVersion) s1).2 = s2 at h2 ⊢
        have h3 := (sSetAttr_keeps (k := "HICKLE_PYTHON_VERSION") (v := .bytes (verText a.pyver)) hroot (.inr (.inl rfl)) s2 h2).1
        rw [M.bind_of_ok (show sSetAttr g "HICKLE_PYTHON_VERSION" (.bytes (verText a.pyver)) s2 =
          (.ok (), (sSetAttr g "HICKLE_PYTHON_VERSION" (.bytes (verText a.pyver)) s2).2) from rfl)]
        generalize (sSetAttr g "HICKLE_PYTHON_VERSION" (.bytes (verText a.pyver)) s2).2 = s3 at h3 ⊢
        have hle : NoRec (loaderEnter g a.options) := by
          unfold loaderEnter
          refine .bind .get fun s => ?_
          split
          · exact .throw (by decide)
          · refine .bind ?_ fun _ => .bind (.modify _) fun _ => .pure _
            rw [hos]; exact setOptions_noRec _ _ _
        have hmo : ∀ m s4, loaderEnter g a.options s3 = (.ok m, s4) → m.Dumps := by
          intro m s4 h
          unfold loaderEnter at h
          rw [M.bind_of_ok (M.get_apply s3)] at h
          split at h
          · simp at h
          · obtain ⟨maps, s5, h5, h⟩ := M.bind_ok_iff.1 h
            obtain ⟨_, s6, _, h⟩ := M.bind_ok_iff.1 h
            simp at h
            obtain ⟨rfl, _⟩ := h
            rw [hos] at h5
            exact setOptions_dumps os ⟨[], rfl, by simp⟩ h5
        rcases loaderEnter_post h3 (.inr hroot) (os := a.options) with ⟨e, s4, e4, h4⟩ | ⟨hl, mgr, s4, e4, h4⟩
        · rw [M.bind_of_error e4]
          have := hle s3
          rw [e4] at this
          intro he; apply this; simp at he; subst he; rfl
        · rw [M.bind_of_ok e4]
          unfold loaderExit
          rw [finally'_modify]
          simp only []
          rcases refEnter_post (env := a.env) h4 hplace with ⟨e, s5, e5, h5⟩ | ⟨hr, m, s5, e5, h5, h6, h7⟩
          · rw [M.bind_of_error e5]
            have := refEnter_noRec a.env g s4
            rw [e5] at this
            intro he; apply this; simp at he; subst he; rfl
          · rw [M.bind_of_ok e5]
            unfold refExit
            rw [finally'_modify]
            simp only []
            unfold dumpData
            cases hT : m.table with
            | none => simp
            | some T =>
              simp only []
              refine dumpNode_ends (H := a.heap) hE hP (hmo _ _ e4) hw hcls hD _ _ _ _ _ _ 0
                ⟨List.prefix_rfl, fun _ h => h, h5.reg⟩ (.old ho) ?_
              have : left a.heap.length [] ≤ a.heap.length := by
                unfold left
                exact Nat.le_trans List.countP_le_length (by simp)
              simp only []
              rw [if_pos ho]
              have := Nat.mul_le_mul_left (D + 1) this
              omega

end Verif
