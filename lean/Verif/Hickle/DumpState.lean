import Verif.Hickle.DumpSteps
import Verif.Hickle.Spec
import Verif.Hickle.Nest
/-!
# What a dump does to its own state

Everything but `load_loader`, the memo and the tuples made for dict entries leaves the objects, the memo and the registry alone.
-/
namespace Verif

/-- a condition on the objects, the memo and the registry of a running dump -/
abbrev OnState (J : Heap → List (Addr × NodeId) → Registry → Prop) (s : DState) : Prop := J s.heap s.memo s.reg

section
variable {J : Heap → List (Addr × NodeId) → Registry → Prop}

theorem mkDset_on {kw p name d} : Keeps (OnState J) (mkDset kw p name d) := by
  intro s hs
  unfold mkDset
  split
  · exact ⟨hs, fun _ _ => trivial⟩
  · split
    · exact ⟨hs, fun _ _ => trivial⟩
    · exact ⟨hs, fun _ _ => trivial⟩

theorem mkGroup_on {p name} : Keeps (OnState J) (mkGroup p name) := by
  intro s hs
  unfold mkGroup
  split
  · exact ⟨hs, fun _ _ => trivial⟩
  · exact ⟨hs, fun _ _ => trivial⟩

theorem setAttr_on {n k v} : Keeps (OnState J) (setAttr n k v) := .modify (fun _ hs => hs) trivial
theorem setAttrs_on {n l} : Keeps (OnState J) (setAttrs n l) := .forEach trivial _ fun _ _ => setAttr_on

theorem createItems_on {c h items dt p name} : Keeps (OnState J) (createItems c h items dt p name) := by
  unfold createItems
  split
  · refine .bind mkDset_on fun n _ => ?_
    split
    · exact .pure trivial
    · exact .throw _
  · exact .throw _
  · exact .bind mkGroup_on fun n _ => .bind setAttr_on fun _ _ => .pure trivial

theorem createPickled_on {c o p name} : Keeps (OnState J) (createPickled c o p name) := by
  unfold createPickled
  repeat' split
  · exact mkDset_on
  · exact .throw _
  · exact .throw _

theorem createListlike_on {c h o p name} : Keeps (OnState J) (createListlike c h o p name) := by
  unfold createListlike
  repeat' split
  all_goals first
    | exact .throw _
    | exact createItems_on
    | exact .bind mkDset_on fun n _ => .bind setAttr_on fun _ _ => .pure trivial
    | exact .bind mkDset_on fun n _ => .pure trivial

theorem createRows_on {c n sh ls p name} : Keeps (OnState J) (createRows c n sh ls p name) := by
  unfold createRows
  split
  · exact .throw _
  · split
    · exact .bind mkDset_on fun n _ => .pure trivial
    · exact .bind mkGroup_on fun n _ => .bind setAttr_on fun _ _ => .pure trivial

theorem createNpArray_on {c h o p name} : Keeps (OnState J) (createNpArray c h o p name) := by
  have dt : ∀ {x d}, Keeps (OnState J) x → Keeps (OnState J) (withDtype x d) :=
    fun hx => .bind hx fun r _ => .bind setAttr_on fun _ _ => .pure trivial
  unfold createNpArray
  split
  · exact dt (.bind mkDset_on fun n _ => .pure trivial)
  · refine dt ?_
    unfold createStrings
    repeat' split
    all_goals first
      | exact .throw _
      | exact createRows_on
      | exact .bind mkDset_on fun n _ => .pure trivial
  · refine dt ?_
    unfold createObjects
    repeat' split
    all_goals first
      | exact .throw _
      | exact createRows_on
      | exact createListlike_on
      | exact .bind mkGroup_on fun n _ => .pure trivial
  · exact .throw _

theorem createFn_on {c fn h o p name} : Keeps (OnState J) (createFn c fn h o p name) := by
  unfold createFn
  split
  · refine .bind (Q := fun _ => True) ?_ fun n _ => .pure trivial
    unfold createScalar
    repeat' split
    all_goals first | exact mkDset_on | exact .throw _
  · exact .bind (Q := fun _ => True) mkDset_on fun n _ => .pure trivial
  · exact createListlike_on
  · unfold createSetlike
    repeat' split
    all_goals first
      | exact .throw _
      | exact createItems_on
      | exact .bind mkDset_on fun n _ => .pure trivial
  · unfold createDictlike
    split
    · exact .bind mkGroup_on fun n _ => .pure trivial
    · exact .throw _
  · refine .bind (Q := fun _ => True) ?_ fun n _ => .pure trivial
    unfold createNpScalar
    split
    · exact .bind mkDset_on fun n _ => .bind setAttr_on fun _ _ => .pure trivial
    · exact .throw _
  · exact createNpArray_on
  · unfold createMasked
    split
    · exact .bind mkGroup_on fun n _ => .bind setAttr_on fun _ _ => .pure trivial
    · exact .throw _
  · unfold createSparse
    split
    · split
      · exact .throw _
      · exact .bind mkGroup_on fun n _ => .pure trivial
    · exact .throw _
  · exact .bind (Q := fun _ => True) createPickled_on fun n _ => .pure trivial
  all_goals exact .throw _

theorem storeType_on {c n cls b} : Keeps (OnState J) (storeType c n cls b) := by
  unfold storeType
  split
  · exact .pure trivial
  · refine .bind (Q := fun _ => True) ?_ fun _ _ => setAttr_on
    unfold typeEntryNode
    refine .bind .get fun s _ => ?_
    split
    · exact .pure trivial
    · split
      · exact .throw _
      · split
        · exact .throw _
        · split
          · exact .throw _
          · refine .bind mkDset_on fun _ _ => .bind (Q := fun _ => True) ?_ fun _ _ => .bind setAttr_on fun _ _ =>
              .bind (Q := fun _ => True) (.modify (fun _ hs => hs) trivial) fun _ _ => .pure trivial
            unfold baseEntry
            refine .bind .get fun s _ => ?_
            split
            · exact .pure trivial
            · exact .bind mkDset_on fun _ _ => .bind (Q := fun _ => True) (.modify (fun _ hs => hs) trivial) fun _ _ => .pure trivial

/-- the condition survives the search for the loader of a class -/
def RegStable (env : Env) (mgr : Manager) (J : Heap → List (Addr × NodeId) → Registry → Prop) : Prop :=
  ∀ h m r c, J h m r → J h m (loadLoader env mgr c none r).2

theorem dumpCreate_on {c o p name} (hr : RegStable c.env c.mgr J) : Keeps (OnState J) (dumpCreate c o p name) := by
  unfold dumpCreate
  refine .bind (Q := fun _ => True) ?_ fun r _ => .bind .get fun s _ => .bind (.attempt (Q := fun _ => True) (createFn_on)) fun r _ => ?_
  · exact fun s hs => ⟨hr _ _ _ _ hs, fun _ _ => trivial⟩
  · split
    · exact .bind storeType_on fun _ _ => .pure trivial
    · split
      · exact .bind createPickled_on fun _ _ => .pure trivial
      · exact .throw _

/-- how deep the objects made for the dump of an object are nested: dict entries, the shape of a sparse matrix,
the list of lists of an array -/
def Val.depth : Val → Nat
  | .dict _ | .masked .. => 1
  | .sparse .. => 2
  | .sarr _ sh _ | .oarr sh _ => sh.length
  | _ => 0

/-- sub items refer to parts of the object (or of its only element) -/
def SubOf (h : Heap) (o : Obj) : SubObj → Prop
  | .addr b => b ∈ o.val.children ∨ (o.val.isTemp = false ∧ ∃ (a : Addr) (p : Obj), a ∈ o.val.children ∧ h[a]? = some p ∧ b ∈ p.val.children)
  | .pair k v => (∃ es, o.val = .dict es) ∧ k ∈ o.val.children ∧ v ∈ o.val.children
  | .nest c sh ls => o.val.isTemp = false ∧ NestOf o.val c sh ls ∧ (∀ b, .addr b ∈ ls → b ∈ o.val.children) ∧ sh.length < o.val.depth

theorem listSubs_from {items : List Addr} : ∀ {i : Nat} {sub : Except PyErr Sub}, sub ∈ listSubs i items → ∃ sb, sub = .ok sb ∧ ∃ b ∈ items, sb.obj = .addr b := by
  induction items with
  | nil => intro i sub h; simp [listSubs] at h
  | cons a as ih =>
    intro i sub h
    simp only [listSubs, List.mem_cons] at h
    rcases h with rfl | h
    · exact ⟨_, rfl, a, by simp, rfl⟩
    · obtain ⟨sb, h1, b, h2, h3⟩ := ih h
      exact ⟨sb, h1, b, by simp [h2], h3⟩

theorem reprKey_err {env : Env} {v : Val} {e : PyErr} (h : reprKey env v = .error e) : e = .valueError ∨ e = .unmodelled := by
  unfold reprKey at h
  repeat' split at h
  all_goals simp at h
  all_goals simp [← h]

theorem keySlot_err {env : Env} {o : Obj} {e : PyErr} (h : keySlot env o = .error e) : e = .valueError ∨ e = .unmodelled := by
  unfold keySlot at h
  split at h
  · simp at h
  · simp at h
  · simp only [] at h
    split at h
    · split at h
      · next hr => cases h; exact reprKey_err hr
      · simp at h
    · simp at h

theorem dictSubs_from {env : Env} {H : Heap} {es : List (Addr × Addr)} : ∀ {i : Nat} {sub : Except PyErr Sub}, sub ∈ dictSubs env H i es →
    sub = .error .valueError ∨ sub = .error .unmodelled ∨ ∃ sb k v, sub = .ok sb ∧ (k, v) ∈ es ∧ (sb.obj = .addr v ∨ sb.obj = .pair k v) := by
  induction es with
  | nil => intro i sub h; simp [dictSubs] at h
  | cons e es ih =>
    intro i sub h
    obtain ⟨k, v⟩ := e
    simp only [dictSubs, List.mem_cons] at h
    rcases h with rfl | h
    · unfold dictSub
      cases hk : H[k]? with
      | none => simp
      | some o =>
        simp only []
        cases hs : keySlot env o with
        | error e => rcases keySlot_err hs with rfl | rfl <;> simp
        | ok r =>
          cases r with
          | none => exact .inr (.inr ⟨_, k, v, rfl, by simp, .inr rfl⟩)
          | some r => exact .inr (.inr ⟨_, k, v, rfl, by simp, .inl rfl⟩)
    · rcases ih h with h | h | ⟨sb, k', v', h1, h2, h3⟩
      · exact .inl h
      · exact .inr (.inl h)
      · exact .inr (.inr ⟨sb, k', v', h1, by simp [h2], h3⟩)

/-- what a create function hands out as sub items -/
theorem createFn_subs {c : DCtx} {fn h o parent name s n subs s1} (he : createFn c fn h o parent name s = (.ok (n, subs), s1)) :
    ∀ sub ∈ subs, sub = .error .valueError ∨ sub = .error .unmodelled ∨ ∃ sb, sub = .ok sb ∧ SubOf h o sb.obj := by
  obtain ⟨at', od, _, _, hd⟩ := createFn_ok he
  intro sub hs
  have key : ∀ items : List Addr, o.val.children = items → sub ∈ listSubs 0 items → ∃ sb, sub = .ok sb ∧ SubOf h o sb.obj := by
    intro items hi hm
    obtain ⟨sb, e1, b, e2, e3⟩ := listSubs_from hm
    exact ⟨sb, e1, by rw [e3]; exact .inl (by rw [hi]; exact e2)⟩
  cases hd with
  | seqItems h1 => exact .inr (.inr (key _ (by rw [h1]; rfl) hs))
  | setItems h1 => exact .inr (.inr (key _ (by rw [h1]; rfl) hs))
  | dict h1 =>
    rcases dictSubs_from hs with h | h | ⟨sb, k, v, e1, e2, e3⟩
    · exact .inl h
    · exact .inr (.inl h)
    · refine .inr (.inr ⟨sb, e1, ?_⟩)
      have hk : k ∈ o.val.children := by rw [h1]; simp only [Val.children, List.mem_flatMap]; exact ⟨_, e2, by simp⟩
      have hv : v ∈ o.val.children := by rw [h1]; simp only [Val.children, List.mem_flatMap]; exact ⟨_, e2, by simp⟩
      rcases e3 with e3 | e3 <;> rw [e3]
      · exact .inl hv
      · exact ⟨⟨_, h1⟩, hk, hv⟩
  | @rows _ _ n sh ls dt h1 h2 h3 =>
    obtain ⟨sb, rfl⟩ : ∃ sb, sub = .ok sb := by
      have : ∀ k i ls, sub ∈ nestSubs sh i k ls → ∃ sb, sub = .ok sb := by
        intro k
        induction k with
        | zero => intro i ls h; simp [nestSubs] at h
        | succ k ih =>
          intro i ls h
          simp only [nestSubs, List.mem_cons] at h
          rcases h with h | h
          · exact ⟨_, h⟩
          · exact ih _ _ h
      exact this _ _ _ hs
    obtain ⟨j, hj, rfl⟩ := nestSubs_mem hs
    refine .inr (.inr ⟨_, rfl, ?_, h1.nest h3 hj, ?_, ?_⟩)
    · cases h1 with
      | str h => rw [h]; rfl
      | obj h => rw [h]; rfl
    · intro b hb
      replace hb := List.mem_of_mem_drop (List.mem_of_mem_take hb)
      cases h1 with
      | str h => simp at hb
      | obj h => rw [h]; simpa [Val.children] using hb
    · cases h1 with
      | str h => rw [h]; simp [Val.depth]
      | obj h => rw [h]; simp [Val.depth]
  | @oseq _ _ _ _ l h1 h2 h3 =>
    cases h3 with
    | items =>
      cases h1 with
      | one h => exact .inr (.inr (key _ (by rw [h]; rfl) hs))
      | zero h h' h'' =>
        obtain ⟨sb, e1, b, e2, e3⟩ := listSubs_from hs
        exact .inr (.inr ⟨sb, e1, by rw [e3]; exact .inr ⟨by rw [h]; rfl, _, _, by rw [h]; simp [Val.children], h', e2⟩⟩)
    | _ => simp at hs
  | oone h1 => simp at hs; subst hs; exact .inr (.inr ⟨_, rfl, .inl (by rw [h1]; simp [Val.children])⟩)
  | masked h1 =>
    have hm : ∀ os : Obj, LeafOf o.val os → SubOf h o (.nest .list [] [.obj os]) := fun os ho =>
      ⟨by rw [h1]; rfl, nest_obj (by rw [h1]; simp) ho, by simp, by rw [h1]; simp [Val.depth]⟩
    simp only [List.mem_cons, List.not_mem_nil, or_false] at hs
    rcases hs with rfl | rfl
    · exact .inr (.inr ⟨_, rfl, hm _ (by rw [h1]; exact .data)⟩)
    · refine .inr (.inr ⟨_, rfl, hm _ ?_⟩)
      rw [h1]
      unfold maskObj
      split
      · exact .nomask
      · exact .data
  | @sparse _ _ d i p shape h1 h2 =>
    simp only [List.mem_cons, List.not_mem_nil, or_false] at hs
    rcases hs with rfl | rfl | rfl | rfl
    · exact .inr (.inr ⟨_, rfl, .inl (by rw [h1]; simp [Val.children])⟩)
    · exact .inr (.inr ⟨_, rfl, .inl (by rw [h1]; simp [Val.children])⟩)
    · exact .inr (.inr ⟨_, rfl, .inl (by rw [h1]; simp [Val.children])⟩)
    · refine .inr (.inr ⟨_, rfl, by rw [h1]; rfl, ?_, by simp, by rw [h1]; simp [Val.depth]⟩)
      rw [h1, show (shape.map fun (n : Nat) => Leaf.obj ⟨.int, .int n⟩) = (shape.map fun (n : Nat) => (⟨.int, .int n⟩ : Obj)).map Leaf.obj by simp]
      refine ⟨.objs (by simp) ?_ (by simp [shSize]), .inr ⟨rfl, by simp [h2], by simp⟩⟩
      intro o ho
      simp at ho
      obtain ⟨n, hn, rfl⟩ := ho
      exact .dim hn
  | _ => simp at hs

theorem dumpCreate_subs {c : DCtx} {o parent name s n subs mem s1} (h : dumpCreate c o parent name s = (.ok (n, subs, mem), s1)) :
    ∀ sub ∈ subs, sub = .error .valueError ∨ sub = .error .unmodelled ∨ ∃ sb, sub = .ok sb ∧ SubOf s.heap o sb.obj := by
  unfold dumpCreate at h
  obtain ⟨⟨cls, e⟩, s2, hr, h⟩ := M.bind_ok_iff.1 h
  have hh : s2.heap = s.heap := by
    unfold onReg at hr
    generalize loadLoader c.env c.mgr o.cls none s.reg = y at hr
    obtain ⟨x, r⟩ := y
    cases hr
    rfl
  dsimp only at h
  rw [M.bind_of_ok (M.get_apply s2), M.bind_of_ok (M.attempt_apply _ s2)] at h
  cases hc : createFn c e.fn s2.heap o parent name s2 with
  | mk r s3 =>
    rw [hc] at h
    cases r with
    | ok r =>
      simp only [] at h
      obtain ⟨_, s4, _, h⟩ := M.bind_ok_iff.1 h
      simp at h
      obtain ⟨⟨rfl, rfl, _⟩, _⟩ := h
      rw [← hh]
      exact createFn_subs hc
    | error e' =>
      simp only [] at h
      split at h
      · obtain ⟨_, s4, _, h⟩ := M.bind_ok_iff.1 h
        simp at h
        obtain ⟨⟨_, rfl, _⟩, _⟩ := h
        simp
      · simp at h

/-- `dumpNode` keeps a condition that `load_loader`, new memo entries and new objects keep -/
theorem dumpNode_on {c : DCtx} (hr : RegStable c.env c.mgr J) (hm : ∀ h m r a n, J h m r → J h (Assoc.put m a n) r)
    (hp : ∀ h m r os, J h m r → J (h ++ os) m r) (fuel : Nat) : ∀ a p name attrs, Keeps (OnState J) (dumpNode c fuel a p name attrs) := by
  induction fuel with
  | zero => exact fun a p name attrs => .throw _
  | succ fuel ih =>
    intro a p name attrs
    simp only [dumpNode]
    refine .bind .get fun s hs => ?_
    split
    · exact .bind mkDset_on fun n _ => setAttrs_on
    · cases ho : s.heap[a]? with
      | none => exact .throw _
      | some o =>
        simp only []
        refine .bind (dumpCreate_on hr) fun r _ =>
          .bind setAttrs_on fun _ _ => .bind (Q := fun _ => True) ?_ fun _ _ => ?_
        · split
          · exact .modify (fun s hs => hm _ _ _ _ _ hs) trivial
          · exact .pure trivial
        · refine .forEach trivial _ fun sub hmem => ?_
          split
          · exact .throw _
          · refine .bind (Q := fun _ => True) ?_ fun b _ => ih b _ _ _
            intro s1 hs1
            cases hso : (_ : Sub).obj
            · exact ⟨hs1, fun _ _ => trivial⟩
            · exact ⟨hp _ _ _ _ hs1, fun _ _ => trivial⟩
            · exact ⟨hp _ _ _ _ hs1, fun _ _ => trivial⟩

end

/-! ### objects made for a dump -/

/-- classes of the objects made for a dump -/
def TempCls (c : Cls) : Prop := c = .list ∨ c = .tuple ∨ c = .str ∨ c = .ndarray ∨ c = .npBool ∨ c = .int

/-- Object `a` is one of the first `base` objects, or one made for the dump from them; `d` bounds how deep new objects are nested in it.
All new objects in it satisfy `Q`. -/
inductive Made (h : Heap) (base : Nat) (Q : Addr → Prop) : Nat → Addr → Prop
  | old {d a} : a < base → Made h base Q d a
  | new {d a o} : base ≤ a → h[a]? = some o → Q a → TempCls o.cls → o.val.isTemp = true → (∀ c ∈ o.val.children, Made h base Q d c) → Made h base Q (d + 1) a

theorem Made.mono {h h' : Heap} {base : Nat} {Q Q' : Addr → Prop} {d : Nat} {a : Addr} (hp : h <+: h') (hq : ∀ a, a < h.length → Q a → Q' a)
    (hb : Made h base Q d a) : Made h' base Q' d a := by
  induction hb with
  | old h => exact .old h
  | new h1 h2 h3 h4 h5 _ ih => exact .new h1 (getElem?_prefix hp h2) (hq _ (lt_of_getElem? h2) h3) h4 h5 ih

theorem Made.weaken {h : Heap} {base : Nat} {Q : Addr → Prop} {d d' : Nat} {a : Addr} (hb : Made h base Q d a) (hd : d ≤ d') : Made h base Q d' a := by
  induction hb generalizing d' with
  | old h => exact .old h
  | new h1 h2 h3 h4 h5 _ ih =>
    obtain ⟨e, rfl⟩ : ∃ e, d' = e + 1 := ⟨d' - 1, by omega⟩
    exact .new h1 h2 h3 h4 h5 fun c hc => ih c hc (by omega)

theorem Made.lt {h : Heap} {base : Nat} {Q : Addr → Prop} {d : Nat} {a : Addr} (hl : base ≤ h.length) (hb : Made h base Q d a) : a < h.length := by
  cases hb with
  | old h => omega
  | new _ h2 => exact lt_of_getElem? h2

theorem LeafOf.temp {v : Val} {o : Obj} (h : LeafOf v o) : TempCls o.cls ∧ o.val.isTemp = true ∧ o.val.children = [] := by
  cases h <;> simp [TempCls, Val.isTemp, Val.children]

theorem Nested.made {st base : Nat} {H : Heap} {c : Cls} {Q : Addr → Prop} (hst : base ≤ st) (hc : TempCls c) (hq : ∀ p, st ≤ p → p < H.length → Q p) :
    ∀ {sh : List Nat} {ls : List Leaf} {p : Addr}, (∀ b, .addr b ∈ ls → b < base) →
    (∀ o, .obj o ∈ ls → TempCls o.cls ∧ o.val.isTemp = true ∧ o.val.children = []) → Nested st H c sh ls p → Made H base Q (sh.length + 1) p := by
  intro sh
  induction sh with
  | nil =>
    rintro ls p h1 h2 ⟨l, rfl, h⟩
    cases l with
    | addr a => cases h; exact .old (h1 _ (by simp))
    | obj o =>
      obtain ⟨k1, k2, k3⟩ := h2 o (by simp)
      exact .new (Nat.le_trans hst h.1) h.2 (hq _ h.1 (lt_of_getElem? h.2)) k1 k2 (by simp [k3])
  | cons n sh ih =>
    rintro ls p h1 h2 ⟨h0, rows, lss, e1, _, rfl, e4⟩
    refine .new (Nat.le_trans hst h0) e1 (hq _ h0 (lt_of_getElem? e1)) hc rfl ?_
    intro r hr
    obtain ⟨l, hl, hn⟩ := e4.partner hr
    refine ih (fun b hb => h1 b ?_) (fun o ho => h2 o ?_) hn
    · exact List.mem_flatten.2 ⟨l, hl, hb⟩
    · exact List.mem_flatten.2 ⟨l, hl, ho⟩

/-- the objects made for a nested sequence -/
theorem nest_made {h : Heap} {base : Nat} {Q : Addr → Prop} {v : Val} {c : Cls} {sh : List Nat} {ls : List Leaf} (hst : base ≤ h.length)
    (hn : NestOf v c sh ls) (ha : ∀ b, .addr b ∈ ls → b < base) (hq : ∀ p, h.length ≤ p → p < (h ++ (nestBlock c sh ls h.length).1).length → Q p) :
    Made (h ++ (nestBlock c sh ls h.length).1) base Q (sh.length + 1) (nestBlock c sh ls h.length).2 := by
  have hb := nest_spec (H := h ++ (nestBlock c sh ls h.length).1) (base := h.length) sh ls h.length hn.1 hn.2 (Nat.le_refl _) (by
    intro i o hi
    rw [List.getElem?_append_right (by omega)]
    simpa using hi)
  refine hb.nested.made hst ?_ hq ha ?_
  · rcases hn.2 with rfl | ⟨rfl, _⟩
    · exact .inl rfl
    · exact .inr (.inl rfl)
  · intro o ho
    obtain ⟨h1, _⟩ := hn
    cases h1 with
    | objs _ h1 _ =>
      simp at ho
      exact (h1 o ho).temp
    | addrs => obtain ⟨x, _, hx⟩ := List.mem_map.1 ho; simp at hx

/-- parts of the objects are objects -/
def Closed (H : Heap) : Prop := ∀ (a : Addr) (o : Obj), H[a]? = some o → ∀ b ∈ o.val.children, b < H.length

/-- the object of a sub item: one of the program's objects, or one made from them -/
theorem subAddr_made {H : Heap} (hw : Closed H) {D d : Nat} (hD : ∀ (x : Addr) (o : Obj), H[x]? = some o → o.val.depth ≤ D)
    {h0 : Heap} {Q0 : Addr → Prop} {a : Addr} {o : Obj} (hp0 : H <+: h0) (ho : h0[a]? = some o) (hb : Made h0 H.length Q0 d a) {so : SubObj} (hs : SubOf h0 o so)
    {t : DState} (hp : h0 <+: t.heap) :
    ∃ b blk, subAddr so t = (.ok b, { t with heap := t.heap ++ blk }) ∧
      ∀ Q : Addr → Prop, (∀ x, x < h0.length → Q0 x → Q x) → (∀ x, t.heap.length ≤ x → x < (t.heap ++ blk).length → Q x) →
        Made (t.heap ++ blk) H.length Q (if a < H.length then D else d - 1) b := by
  have hlen : H.length ≤ t.heap.length := (hp0.trans hp).length_le
  have hH : a < H.length → H[a]? = some o := by
    intro ha
    obtain ⟨x, rfl⟩ := hp0
    rwa [List.getElem?_append_left ha] at ho
  have hchild : ∀ Q : Addr → Prop, (∀ x, x < h0.length → Q0 x → Q x) → ∀ b ∈ o.val.children, Made t.heap H.length Q (if a < H.length then D else d - 1) b := by
    intro Q hQ b hm
    by_cases ha : a < H.length
    · exact .old (hw a o (hH ha) b hm)
    · rw [if_neg ha]
      cases hb with
      | old h => exact absurd h ha
      | new _ h2 _ _ _ h5 => rw [ho] at h2; cases h2; exact (h5 b hm).mono hp hQ
  have hown : o.val.isTemp = false → a < H.length := by
    intro hf
    cases hb with
    | old h => exact h
    | new _ h2 _ _ h5 => rw [ho] at h2; cases h2; rw [hf] at h5; simp at h5
  cases so with
  | addr b =>
    refine ⟨b, [], by simp [subAddr], fun Q hQ hN => ?_⟩
    rw [List.append_nil]
    rcases hs with hs | ⟨hf, x, p, h1, h2, h3⟩
    · exact hchild Q hQ b hs
    · have ha := hown hf
      have hx := hw a o (hH ha) x h1
      refine .old (hw x p ?_ b h3)
      obtain ⟨y, rfl⟩ := hp0
      rwa [List.getElem?_append_left hx] at h2
  | pair k v =>
    obtain ⟨⟨es, he⟩, h1, h2⟩ := hs
    have ha := hown (by rw [he]; rfl)
    refine ⟨_, [⟨.tuple, .seq [k, v]⟩], rfl, fun Q hQ hN => ?_⟩
    have hd := hD a o (hH ha)
    rw [he] at hd
    rw [if_pos ha]
    obtain ⟨D', rfl⟩ : ∃ D', D = D' + 1 := ⟨D - 1, by simp [Val.depth] at hd; omega⟩
    refine .new hlen (o := ⟨.tuple, .seq [k, v]⟩) (by rw [List.getElem?_append_right (Nat.le_refl _)]; simp) (hN _ (Nat.le_refl _) (by simp)) (.inr (.inl rfl)) rfl ?_
    intro b hb
    simp [Val.children] at hb
    rcases hb with rfl | rfl
    · exact .old (hw a o (hH ha) _ h1)
    · exact .old (hw a o (hH ha) _ h2)
  | nest cl sh ls =>
    obtain ⟨hf, h1, h2, h3⟩ := hs
    have ha := hown hf
    refine ⟨_, _, rfl, fun Q hQ hN => ?_⟩
    have hd := hD a o (hH ha)
    rw [if_pos ha]
    have := nest_made hlen h1 (fun b hb => hw a o (hH ha) b (h2 b hb)) hN
    exact this.weaken (by omega)

end Verif
