import Verif.Hickle.PartLoad
/-!
# Loading what a call of `dump` left at its path
-/
namespace Verif

variable {P : Nat → Prop}

/-- restriction of a part of a value to the objects of the original heap -/
theorem PartVal.restrict {env : Env} {H0 K L : Heap} {R : Addr → Addr → Prop} (hp : H0 <+: K) {v' v : Val} (hch : ∀ x ∈ v.children, x < H0.length)
    (h : PartVal env K L R v' v) : PartVal env H0 L (fun x c => R x c ∧ c < H0.length) v' v := by
  have num : ∀ {d : DT} {x c : Addr}, c < H0.length → NumOf K L d x c → NumOf H0 L d x c := by
    rintro d x c hc ⟨o, o', h1, h2, h3⟩
    exact ⟨o, o', by rw [← getElem?_pre hp hc]; exact h1, h2, h3⟩
  have either : ∀ {x c : Addr}, c < H0.length → (R x c ∨ ∃ d, NumOf K L d x c) → ((R x c ∧ c < H0.length) ∨ ∃ d, NumOf H0 L d x c) :=
    fun hc h => h.imp (fun h => ⟨h, hc⟩) fun ⟨d, h⟩ => ⟨d, num hc h⟩
  have all : ∀ {r r' : Addr → Addr → Prop} {xs as : List Addr}, (∀ x c, c < H0.length → r x c → r' x c) → All2 r xs as → (∀ y ∈ as, y < H0.length) → All2 r' xs as := by
    intro r r' xs as hr hall
    induction hall with
    | nil => intro _; exact .nil
    | cons q1 _ ih => intro hy; exact .cons (hr _ _ (hy _ (by simp)) q1) (ih fun y hyy => hy y (by simp [hyy]))
  have items : ∀ {xs as : List Addr}, ItemsPart K L R xs as → (∀ y ∈ as, y < H0.length) → ItemsPart H0 L (fun x c => R x c ∧ c < H0.length) xs as := by
    rintro xs as (h | ⟨d, h⟩) hy
    · exact .inl (all (fun x c hc h => h.imp id fun h => ⟨h, hc⟩) h hy)
    · exact .inr ⟨d, all (fun x c hc h => num hc h) h hy⟩
  have entry : ∀ {e' e : Addr × Addr}, e.1 < H0.length → e.2 < H0.length → EntryPart K L R e' e → EntryPart H0 L (fun x c => R x c ∧ c < H0.length) e' e := by
    rintro e' e h1 h2 (⟨⟨o, k1, k2, k3⟩, k4⟩ | h)
    · exact .inl ⟨⟨o, by rw [← getElem?_pre hp h1]; exact k1, k2, k3⟩, k4, h2⟩
    · refine .inr (items h ?_)
      intro y hy
      simp only [List.mem_cons, List.not_mem_nil, or_false] at hy
      rcases hy with rfl | rfl
      · exact h1
      · exact h2
  cases h with
  | atom h => exact .atom h
  | seq h => exact .seq (items h hch)
  | set h =>
    refine .set fun x hx => ?_
    obtain ⟨c, h1, h2⟩ := h x hx
    exact ⟨c, h1, either (hch c h1) h2⟩
  | dict h =>
    simp only [Val.children, List.mem_flatMap] at hch
    refine .dict fun e' he => ?_
    obtain ⟨⟨v, e, h1, h2⟩, k, h3, f, h4, h5⟩ := h e' he
    exact ⟨⟨v, e, h1, entry (hch e.1 ⟨e, h1, by simp⟩) (hch e.2 ⟨e, h1, by simp⟩) h2⟩, k, h3, f, h4,
      entry (hch f.1 ⟨f, h4, by simp⟩) (hch f.2 ⟨f, h4, by simp⟩) h5⟩
  | sarr h => exact .sarr h
  | oarr h => exact .oarr fun x hx => (h x hx).mono List.prefix_rfl fun y ⟨c, h1, h2⟩ => ⟨c, h1, either (hch c h1) h2⟩
  | sparse h1 h2 h3 =>
    simp only [Val.children] at hch
    exact .sparse ⟨h1, hch _ (by simp)⟩ ⟨h2, hch _ (by simp)⟩ ⟨h3, hch _ (by simp)⟩

/-- reading a types table: what is learned agrees with it -/
theorem refEntries_tc {env : Env} {S : Store} : ∀ (es : List (PyStr × NodeId)) (m m' : RefMgr), TcOk env S m.tc → refEntries env S m es = .ok m' → TcOk env S m'.tc := by
  intro es
  induction es with
  | nil => intro m m' h e; simp [refEntries] at e; subst e; exact h
  | cons p es ih =>
    intro m m' h e
    simp only [refEntries] at e
    cases h1 : refEntry env S m p with
    | error x => rw [h1] at e; simp at e
    | ok m1 =>
      rw [h1] at e
      refine ih m1 m' ?_ e
      clear e ih
      unfold refEntry at h1
      cases hn : S[p.2]? with
      | none => rw [hn] at h1; simp at h1
      | some nd =>
        rw [hn] at h1; simp only at h1
        cases hb : nd.body with
        | group ls => rw [hb] at h1; simp at h1
        | dset d =>
          rw [hb] at h1; simp only at h1
          split at h1
          · simp at h1; subst h1; exact h
          · split at h1
            · next b hbt =>
              cases hbn : S[b]? with
              | none => rw [hbn] at h1; simp at h1
              | some bn =>
                rw [hbn] at h1; simp only at h1
                cases d with
                | pickleCls cls =>
                  simp only at h1
                  have put : ∀ ti : TypeInfo, ti = (if clsImportable env cls then TypeInfo.known cls (unps bn.name) else .lost (unps bn.name)) →
                      TcOk env S (Assoc.put m.tc p.2 ti) := by
                    intro ti hti e' ti' cls' g1 g2
                    by_cases he : e' = p.2
                    · subst he
                      rw [Assoc.get?_put_self] at g1; simp at g1; subst g1
                      obtain ⟨nd2, b2, bn2, q1, q2, q3, q4, q5⟩ := g2
                      rw [hn] at q1; simp at q1; subst q1
                      rw [hb] at q2; simp at q2; subst q2
                      rw [hbt] at q3; simp at q3; subst q3
                      rw [hbn] at q4; simp at q4; subst q4
                      rw [hti, q5, unps_ps]; rfl
                    · rw [Assoc.get?_put_ne _ _ (Ne.symm he)] at g1
                      exact h e' ti' cls' g1 g2
                  split at h1
                  · next hi => simp at h1; subst h1; exact put _ (by rw [if_pos hi])
                  · next hi => simp at h1; subst h1; exact put _ (by rw [if_neg hi])
                | _ => simp at h1
            · simp at h1

/-- entering the loader manager of a load -/
theorem loaderEnter_yields {g : NodeId} {s s1 : Session} {mgr : Manager} (h : loaderEnter g none s = (.ok mgr, s1)) :
    s1 = { s with ldr := true } ∧ optMaps (attrOptions ((s.store.attrs g).getD [])) [none] = .ok mgr.maps := by
  unfold loaderEnter at h
  rw [M.bind_of_ok (M.get_apply s)] at h
  split at h
  · simp [M.throw] at h
  · obtain ⟨maps, s2, h1, h2⟩ := M.bind_ok_iff.1 h
    rw [optionMaps_none] at h1
    simp at h1
    obtain ⟨h1, rfl⟩ := h1
    rw [M.bind_of_ok (x := M.modify _) (a := ()) (s1 := { s with ldr := true }) rfl, M.pure_apply] at h2
    simp at h2
    obtain ⟨rfl, rfl⟩ := h2
    exact ⟨rfl, h1⟩

/-- entering the reference manager of a load when there is a types table -/
theorem refEnter_yields {env : Env} {g T : NodeId} {s s1 : Session} {ls} {m : RefMgr} (hl : s.store.links g = some ls) (hT : Assoc.get? ls tableName = some T)
    (h : refEnter env g s = (.ok m, s1)) : s1 = { s with ref := true } ∧ TcOk env s.store m.tc := by
  unfold refEnter at h
  rw [M.bind_of_ok (M.get_apply s)] at h
  split at h
  · simp [M.throw] at h
  · obtain ⟨m', s2, h1, h2⟩ := M.bind_ok_iff.1 h
    rw [M.bind_of_ok (x := M.modify _) (a := ()) (s1 := { s2 with ref := true }) rfl, M.pure_apply] at h2
    simp at h2
    obtain ⟨rfl, rfl⟩ := h2
    have hnil : TcOk env s.store ([] : List (NodeId × TypeInfo)) := by intro e ti cls hn; simp at hn
    unfold refInit at h1
    simp only [hl, hT] at h1
    cases hes : s.store.links T with
    | none => rw [hes] at h1; simp at h1
    | some es =>
      rw [hes] at h1; simp only at h1
      split at h1
      · obtain ⟨h3, rfl⟩ := Prod.mk.inj h1
        exact ⟨rfl, refEntries_tc es ⟨some T, [], [], []⟩ _ hnil h3⟩
      · obtain ⟨h1, rfl⟩ := Prod.mk.inj h1
        simp at h1; subst h1
        exact ⟨rfl, hnil⟩

/-- the reference manager of a load makes no `data` -/
theorem refEnter_noData {env : Env} {g : NodeId} {s s1 : Session} {ls} {m : RefMgr} (hl : s.store.links g = some ls) (hd : Assoc.get? ls dataName0 = none)
    (h : refEnter env g s = (.ok m, s1)) : ∃ ls', s1.store.links g = some ls' ∧ Assoc.get? ls' dataName0 = none := by
  unfold refEnter at h
  rw [M.bind_of_ok (M.get_apply s)] at h
  split at h
  · simp [M.throw] at h
  · obtain ⟨m', s2, h1, h2⟩ := M.bind_ok_iff.1 h
    rw [M.bind_of_ok (x := M.modify _) (a := ()) (s1 := { s2 with ref := true }) rfl, M.pure_apply] at h2
    simp at h2
    obtain ⟨rfl, rfl⟩ := h2
    unfold refInit at h1
    simp only [hl] at h1
    cases hT : Assoc.get? ls tableName with
    | some T =>
      rw [hT] at h1; simp only at h1
      refine ⟨ls, ?_, hd⟩
      split at h1
      · simp at h1
      · split at h1
        · obtain ⟨_, rfl⟩ := Prod.mk.inj h1; exact hl
        · obtain ⟨_, rfl⟩ := Prod.mk.inj h1; exact hl
    | none =>
      rw [hT] at h1; simp only at h1
      split at h1
      · split at h1
        · simp at h1
        · next T st hc =>
          obtain ⟨_, rfl⟩ := Prod.mk.inj h1
          obtain ⟨nd, ls0, k1, k2, k4, _, _, _, _, _, k3, _⟩ := Store.create_ok hc
          have : ls0 = ls := by rw [Store.links_of k1 k2] at hl; simpa using hl
          subst this
          refine ⟨_, Store.links_of k3 rfl, ?_⟩
          clear k1 k2 k3 k4 hl hT h1 hc
          induction ls0 with
          | nil => simp [Assoc.get?]; decide
          | cons q l ih =>
            simp only [List.cons_append, Assoc.get?] at hd ⊢
            split at hd
            · simp at hd
            · next hne => rw [if_neg hne]; exact ih hd
      · obtain ⟨_, rfl⟩ := Prod.mk.inj h1; exact ⟨ls, hl, hd⟩

/-- a load that returns: the group, the managers and the load itself -/
theorem loadTop_yields {a : LoadArgs} {t t' : Session} {r : Heap × Addr} (h : loadTop a t = (.ok r, t')) :
    ∃ g ls mgr s1 m s2 s3, t.store.resolve 0 a.path = some g ∧ t.store.links g = some ls ∧
      route ((t.store.attrs 0).getD []) ((t.store.attrs g).getD []) = .current ∧ loaderEnter g none t = (.ok mgr, s1) ∧
      refEnter a.env g s1 = (.ok m, s2) ∧ loadBodyTop a g mgr m s2 = (.ok r, s3) := by
  unfold loadTop at h
  rw [M.bind_of_ok (M.attempt_apply _ _)] at h
  cases h1 : loadTry a t with
  | mk y t1 =>
  rw [h1] at h
  cases y with
  | error e => simp [M.throw] at h
  | ok x =>
    simp only at h
    rw [M.pure_apply] at h
    simp at h; obtain ⟨rfl, rfl⟩ := h
    unfold loadTry at h1
    rw [M.bind_of_ok (M.get_apply t)] at h1
    cases hp : pathOk a.path with
    | error e => rw [hp] at h1; simp [M.throw] at h1
    | ok _ =>
    rw [hp] at h1; simp only at h1
    cases hr : t.store.resolve 0 a.path with
    | none => rw [hr] at h1; simp [M.throw] at h1
    | some g =>
    rw [hr] at h1; simp only at h1
    cases hl : t.store.links g with
    | none => rw [hl] at h1; simp [M.throw] at h1
    | some ls =>
    rw [hl] at h1; simp only at h1
    cases hro : route ((t.store.attrs 0).getD []) ((t.store.attrs g).getD []) with
    | refuse e => rw [hro] at h1; simp [M.throw] at h1
    | v3 => rw [hro] at h1; simp [M.throw] at h1
    | v4 => rw [hro] at h1; simp [M.throw] at h1
    | current =>
      rw [hro] at h1; simp only at h1
      obtain ⟨mgr, s1, k1, k2⟩ := M.bind_ok_iff.1 h1
      unfold loaderExit at k2
      rw [finally'_modify] at k2
      obtain ⟨k2, _⟩ := Prod.mk.inj k2
      generalize hz : (do let m ← refEnter a.env g; finally' (loadBodyTop a g mgr m) (refExit m) : SM (Heap × Addr)) s1 = z at k2
      obtain ⟨z1, z2⟩ := z
      simp only at k2; subst k2
      obtain ⟨m, s2, k3, k4⟩ := M.bind_ok_iff.1 hz
      unfold refExit at k4
      rw [finally'_modify] at k4
      obtain ⟨k4, _⟩ := Prod.mk.inj k4
      generalize hw : loadBodyTop a g mgr m s2 = w at k4
      obtain ⟨w1, w2⟩ := w
      simp only at k4; subst k4
      exact ⟨g, ls, mgr, s1, m, s2, w2, rfl, hl, hro, k1, k3, hw⟩

/-- **loading what a dump left**: if a load from the path returns, it returns a part of the object -/
theorem Tried.loads {env : Env} {p : List PyStr} {H0 : Heap} {obj : Addr} {S : Store} (h : Tried env H0 obj p S) (hE : EnvOk P env) (hg : GoodHeap P env H0)
    (ho : obj < H0.length) {t t' : Session} (hS : t.store = S) (hreg : RegInv P t.reg) {order : List (PyStr × NodeId) → List (PyStr × NodeId)}
    (hord : ∀ l, (order l).Perm l) {fuel : Nat} {L : Heap} {b : Addr} (hl : loadTop ⟨env, p, order, fuel⟩ t = (.ok (L, b), t')) : Part env H0 L b obj := by
  subst hS
  obtain ⟨g, ls, mgr, s1, m, s2, s3, h1, h2, _, h4, h5, h6⟩ := loadTop_yields hl
  obtain ⟨rfl, hmaps⟩ := loaderEnter_yields h4
  rcases h with hno | ⟨g', T, W, K, ht⟩
  · exfalso
    have hd := hno g ls h1 h2
    obtain ⟨ls', e1, e2⟩ := refEnter_noData (s := { t with ldr := true }) h2 hd h5
    unfold loadBodyTop at h6
    simp only [e1, e2] at h6
    simp at h6
  · obtain rfl : g' = g := by have := ht.res; rw [h1] at this; simpa using this.symm
    obtain ⟨ls', e1, e2⟩ := ht.table
    rw [h2] at e1; simp at e1; subst e1
    obtain ⟨at', f1, f2⟩ := ht.attrs
    obtain ⟨rfl, htc⟩ := refEnter_yields (s := { t with ldr := true }) h2 e2 h5
    have hmok : mgr.Ok := by
      obtain ⟨maps, k1, k2⟩ := optMaps_ok f2.opts
      rw [f1, Option.getD_some, k1] at hmaps
      simp at hmaps
      cases mgr; simp at hmaps; subst hmaps; exact k2
    have hgK := ht.left.toTemps.graph hg.toGraph
    unfold loadBodyTop at h6
    simp only [h2] at h6
    cases hd : Assoc.get? ls dataName0 with
    | none => rw [hd] at h6; simp at h6
    | some d =>
    rw [hd] at h6
    simp only at h6
    have hh : PHyp P H0.length K W ⟨env, mgr, t.store, order⟩ :=
      { env := hE, mgr := hmok, order := fun l p hp => (hord l).mem_iff.1 hp, good := hgK
        live := fun a o hao => by
          rcases Nat.lt_or_ge a H0.length with hlt | hge
          · rw [getElem?_pre ht.left.pre hlt] at hao
            exact (hg.cls a o hao).2.live
          · have := (ht.left.toTemps.temp hg.toGraph hge hao).1
            rcases o with ⟨cl, v⟩
            cases cl <;> first | rfl | simp [NativeOk] at this
        draft := ht.left.draft, uniq := ht.left.uniq }
    obtain ⟨subs, hW⟩ := ht.left.root ls d h2 (Assoc.get?_mem hd)
    have h0 : PLoad P K W ⟨env, mgr, t.store, order⟩ (fun _ _ => False) { heap := loadHeap, tcache := m.tc, reg := t.reg } :=
      { zero := rfl, part := fun _ _ h => h.elim, func := fun _ _ _ h => h.elim, memo := fun n x hn => by simp [Assoc.get?] at hn
        tc := htc, reg := hreg }
    cases hx : loadNode ⟨env, mgr, t.store, order⟩ fuel (.root []) dataName0 d { heap := loadHeap, tcache := m.tc, reg := t.reg } with
    | mk y s4 =>
    rw [hx] at h6
    cases y with
    | error e => simp at h6
    | ok cont =>
      obtain ⟨x, nd, R, s5, s6, g1, g2, g3, g4, g5, g6, g7, g8, g9⟩ := loadNode_part hh fuel _ _ _ _ _ _ _ _ hW h0 hx
      cases g6
      simp only [List.nil_append] at h6
      simp at h6
      obtain ⟨⟨rfl, rfl⟩, _⟩ := h6
      refine ⟨fun y c => R y c ∧ c < H0.length, ⟨g5, ho⟩, fun y c c' k1 k2 => g7.func y c c' k1.1 k2.1, ?_⟩
      rintro y c ⟨k1, k2⟩
      obtain ⟨o, o', l1, l2, l3, l4⟩ := g7.part y c k1
      rw [getElem?_pre ht.left.pre k2] at l1
      exact ⟨o, o', l1, l2, l3, l4.restrict ht.left.pre (hg.wf c o l1)⟩

end Verif
