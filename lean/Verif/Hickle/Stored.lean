import Verif.Hickle.TopSteps
/-!
# A file that holds a complete dump

`Stored env S p H a`: the group at path `p` of the file `S` holds a complete dump of object `a` of
heap `H`.  `dumpTop_stored`: a successful `dump` establishes it.  `Stored.keep`: every call with a
path that does not lead into the dump leaves it alone.  `Stored.load`: `load` gives back a copy.
-/
namespace Verif

variable {P : Nat → Prop}

/-! ### changes that leave a dump alone -/

/-- old nodes keep their names, datasets and the nodes of the dump `W` stay as they are -/
structure Undisturbed (W : Rel) (S S' : Store) : Prop where
  old : ∀ (n : NodeId) (nd : Node), S[n]? = some nd → ∃ nd', S'[n]? = some nd' ∧ nd'.name = nd.name ∧ ∀ d, nd.body = .dset d → nd' = nd
  own : ∀ (n : NodeId) (b : Addr) (nd : Node), W n b → S[n]? = some nd → S'[n]? = some nd

theorem EntryOk.und {env : Env} {S S' : Store} {W : Rel} {cls e} (hu : Undisturbed W S S') (h : EntryOk env S cls e) : EntryOk env S' cls e := by
  obtain ⟨nd, b, bn, h1, h2, h3, h4, h5⟩ := h
  obtain ⟨nd', k1, _, k2⟩ := hu.old e nd h1
  obtain ⟨bn', k3, k4, _⟩ := hu.old b bn h4
  rw [k2 _ h2] at k1
  exact ⟨nd, b, bn', k1, h2, h3, k3, k4.trans h5⟩

theorem TypeOk.und {env : Env} {S S' : Store} {W : Rel} {cls at'} (hu : Undisturbed W S S') (h : TypeOk env S cls at') : TypeOk env S' cls at' := by
  rcases h with h | ⟨h, e, h1, h2⟩
  · exact .inl h
  · exact .inr ⟨h, e, h1, h2.und hu⟩

theorem Child.und {S S' : Store} {W : Rel} {m a attrs} (hu : Undisturbed W S S') (h : Child S W m a attrs) : Child S' W m a attrs := by
  obtain ⟨nd, h1, h2, h3⟩ := h
  rcases h3 with h3 | ⟨t, h3, h4, h5⟩
  · exact ⟨nd, hu.own m a nd h3 h1, h2, .inl h3⟩
  · obtain ⟨nd', k1, _, k2⟩ := hu.old m nd h1
    rw [k2 _ h3] at k1
    exact ⟨nd, k1, h2, .inr ⟨t, h3, h4, h5⟩⟩

theorem Kids.und {base : Nat} {H : Heap} {S S' : Store} {W : Rel} {ls subs} (hu : Undisturbed W S S') (h : Kids base H S W ls subs) :
    Kids base H S' W ls subs := by
  induction h with
  | nil => exact .nil
  | cons h0 h1 h2 _ ih => exact .cons h0 h1 (h2.und hu) ih

theorem NodeOk.und {env : Env} {base : Nat} {H : Heap} {S S' : Store} {W : Rel} {n a} (hu : Undisturbed W S S') (hw : W n a)
    (h : NodeOk env base H S W n a) : NodeOk env base H S' W n a := by
  obtain ⟨o, nd, od, subs, h1, h2, h3, h4, h5⟩ := h
  refine ⟨o, nd, od, subs, h1, hu.own n a nd hw h2, h3.und hu, h4, ?_⟩
  cases od with
  | some d => exact h5
  | none =>
    obtain ⟨ls, k1, k2⟩ := h5
    exact ⟨ls, k1, k2.und hu⟩

theorem Dumped.und {env : Env} {H0 H : Heap} {S S' : Store} {W : Rel} {m a} (hu : Undisturbed W S S') (h : Dumped env H0 H S W m a) :
    Dumped env H0 H S' W m a :=
  { h with nodes := fun n b hw => (h.nodes n b hw).und hu hw, root := h.root.und hu }

/-! ### the dump and its place in the file -/

/-- the attributes of the group tell `load` to read it with the loaders of this version -/
structure RootAttrs (at' : Attrs) : Prop where
  ver : Assoc.get? at' "HICKLE_VERSION" = some (.bytes hickleVersion)
  py : ∃ v, Assoc.get? at' "HICKLE_PYTHON_VERSION" = some v ∧ v.truthy = true
  opts : ∀ o ∈ attrOptions at', o = "custom"

/-- the group `g` at path `p` holds a complete dump of `a`.  `T`: its types table, `m`: its data.
All nodes numbered from `N` to below `M` belong to it. -/
structure StoredAt (env : Env) (S : Store) (p : List PyStr) (H0 H : Heap) (a : Addr) (W : Rel) (g T m : NodeId) (N M : Nat) : Prop where
  path : pathOk p = .ok ()
  res : S.resolve 0 p = some g
  data : ∃ ls, S.links g = some ls ∧ Assoc.get? ls dataName0 = some m ∧ Assoc.get? ls tableName = some T
  attrs : ∃ at', S.attrs g = some at' ∧ RootAttrs at'
  tab : ∃ es, S.links T = some es ∧ ∀ e ∈ es, ∃ nd, S[e.2]? = some nd ∧
    (nd.body = .dset (.null "S1") ∨ ∃ cls, nd.body = .dset (.pickleCls cls) ∧ EntryOk env S cls e.2)
  once : ∀ es, S.links T = some es → ∀ e ∈ es, ∀ e' ∈ es, ∀ (nd nd' : Node) (cls : Cls), S[e.2]? = some nd → S[e'.2]? = some nd' →
    nd.body = .dset (.pickleCls cls) → nd'.body = .dset (.pickleCls cls) → e.2 = e'.2
  low : T < N
  high : M ≤ S.length
  region : ∀ (y : NodeId) (ls : List (PyStr × NodeId)), S.links y = some ls → ∀ e ∈ ls, N ≤ e.2 → e.2 < M → (y = g ∧ e.1 = dataName0) ∨ y = T ∨ N ≤ y
  dumped : Dumped env H0 H S W m a
  inside : ∀ n b, W n b → N ≤ n ∧ n < M

/-- the group at path `p` of the file holds a complete dump of object `a` of heap `H` -/
def Stored (env : Env) (S : Store) (p : List PyStr) (H0 : Heap) (a : Addr) : Prop :=
  ∃ H W g T m N M, StoredAt env S p H0 H a W g T m N M

theorem StoredAt.pathT {env : Env} {S : Store} {p H0 H a W g T m N M} (h : StoredAt env S p H0 H a W g T m N M) : S.resolve 0 (p ++ [tableName]) = some T := by
  obtain ⟨ls, h1, _, h2⟩ := h.data
  rw [Store.resolve_append, h.res]
  simp [Store.resolve, h1, h2]

/-- the only ways to the nodes of a dump lead through `data` and `hickle_types_table` -/
theorem StoredAt.way {env : Env} {S : Store} {p H0 H a W g T m N M} (h : StoredAt env S p H0 H a W g T m N M) (hT : Tree S) :
    ∀ (q : List PyStr) (x : NodeId), S.resolve 0 q = some x → N ≤ x → x < M → p ++ [dataName0] <+: q ∨ p ++ [tableName] <+: q := by
  intro q
  induction hl : q.length generalizing q with
  | zero =>
    intro x h1 h2
    have : q = [] := by simpa using hl
    subst this
    simp [Store.resolve] at h1
    have := h.low; omega
  | succ k ih =>
    intro x h1 h2 h3
    rcases List.eq_nil_or_concat q with rfl | ⟨q0, z, rfl⟩
    · simp at hl
    · simp only [List.concat_eq_append] at *
      obtain ⟨y, ls, g1, g2, g3⟩ := Store.resolve_snoc h1
      have hmem := Assoc.get?_mem g3
      rcases h.region y ls g2 _ hmem h2 h3 with ⟨rfl, e⟩ | rfl | e
      · simp only at e; subst e
        rw [hT.path_unique q0 p g1 h.res]
        exact .inl List.prefix_rfl
      · rw [hT.path_unique q0 _ g1 h.pathT]
        exact .inr (List.prefix_append _ _)
      · have := (hT.up y ls g2 _ hmem).1
        simp only at this
        rcases ih q0 (by simpa using hl) y g1 e (by omega) with k | k
        · exact .inl (k.trans (List.prefix_append _ _))
        · exact .inr (k.trans (List.prefix_append _ _))

/-- the path does not lead into the dump at `p` -/
def Avoids (p q : List PyStr) : Prop := ¬ p ++ [dataName0] <+: q ∧ ¬ p ++ [tableName] <+: q

theorem StoredAt.keep {env : Env} {S S' : Store} {p q H0 H a W g T m N M} (h : StoredAt env S p H0 H a W g T m N M) (hT : Tree S) (hc : Chg q S S')
    (ha : Avoids p q) : StoredAt env S' p H0 H a W g T m N M := by
  have off : ∀ (x : NodeId), N ≤ x → x < M → ¬ OnPath S q x := by
    rintro x h1 h2 ⟨q1, hq, hr⟩
    rcases h.way hT q1 x hr h1 h2 with k | k
    · exact ha.1 (k.trans hq)
    · exact ha.2 (k.trans hq)
  have hu : Undisturbed W S S' := by
    constructor
    · intro n nd hn
      obtain ⟨nd', k1, k2, k3, _⟩ := hc.keep n nd hn
      exact ⟨nd', k1, k2, k3⟩
    · intro n b nd hw hn
      obtain ⟨nd', k1, _, _, _, _, k2, _⟩ := hc.keep n nd hn
      rw [k2 (off n (h.inside n b hw).1 (h.inside n b hw).2)] at k1; exact k1
  have offT : ¬ OnPath S q T := by
    rintro ⟨q1, hq, hr⟩
    rw [hT.path_unique q1 _ hr h.pathT] at hq
    exact ha.2 hq
  obtain ⟨ls, hl, hl1, hl2⟩ := h.data
  obtain ⟨gd, hg1, hg2⟩ := Store.links_eq hl
  constructor
  · exact h.path
  · exact Store.resolve_ext hc.glinks h.res
  · obtain ⟨ls', hl'⟩ := hc.glinks g ls hl
    exact ⟨_, hl', Assoc.get?_append_some hl1, Assoc.get?_append_some hl2⟩
  · obtain ⟨at', h1, h2⟩ := h.attrs
    obtain ⟨gd', k1, _, _, _, k2, _⟩ := hc.keep g gd hg1
    have : gd'.attrs = gd.attrs := by
      apply k2
      rw [hg2]
      intro e
      simp at e; subst e; simp at hl1
    refine ⟨at', ?_, h2⟩
    rw [← h1]; simp [Store.attrs, k1, hg1, this]
  · obtain ⟨es, h1, h2⟩ := h.tab
    obtain ⟨td, k1, k2⟩ := Store.links_eq h1
    obtain ⟨td', k3, _, _, _, _, k4, _⟩ := hc.keep T td k1
    rw [k4 offT] at k3
    refine ⟨es, Store.links_of k3 k2, fun e he => ?_⟩
    obtain ⟨nd, g1, g2⟩ := h2 e he
    obtain ⟨nd', g3, _, g4⟩ := hu.old e.2 nd g1
    rcases g2 with g2 | ⟨cls, g2, g5⟩
    · rw [g4 _ g2] at g3; exact ⟨nd, g3, .inl g2⟩
    · rw [g4 _ g2] at g3; exact ⟨nd, g3, .inr ⟨cls, g2, g5.und hu⟩⟩
  · intro es' hes' e he e' he' nd nd' cls q1 q2 q3 q4
    obtain ⟨es, h1, h2⟩ := h.tab
    obtain ⟨td, k1, k2⟩ := Store.links_eq h1
    obtain ⟨td', k3, _, _, _, _, k4, _⟩ := hc.keep T td k1
    rw [k4 offT] at k3
    have : es' = es := by have := Store.links_of k3 k2; rw [this] at hes'; simpa using hes'.symm
    subst this
    have old : ∀ x ∈ es', ∀ xd : Node, S'[x.2]? = some xd → S[x.2]? = some xd := by
      intro x hx xd hxd
      obtain ⟨md, g1, g2⟩ := h2 x hx
      obtain ⟨md', g3, _, g4⟩ := hu.old x.2 md g1
      have : md' = md := by rcases g2 with g2 | ⟨c2, g2, _⟩ <;> exact g4 _ g2
      rw [this, hxd] at g3; simp at g3; rw [g3]; exact g1
    exact h.once es' h1 e he e' he' nd nd' cls (old e he nd q1) (old e' he' nd' q2) q3 q4
  · exact h.low
  · exact Nat.le_trans h.high hc.length
  · intro y ls0 hls e he h1 h2
    rcases hc.links y ls0 hls e he with ⟨ls1, k1, k2⟩ | k
    · exact h.region y ls1 k1 e k2 h1 h2
    · have := h.high; omega
  · exact h.dumped.und hu
  · exact h.inside

theorem Stored.keep {env : Env} {S S' : Store} {p q H0 a} (h : Stored env S p H0 a) (hT : Tree S) (hc : Chg q S S') (ha : Avoids p q) :
    Stored env S' p H0 a := by
  obtain ⟨H, W, g, T, m, N, M, h⟩ := h
  exact ⟨H, W, g, T, m, N, M, h.keep hT hc ha⟩

/-! ### the file root -/

/-- the root of the file does not look like a file of hickle 3 -/
def NoV3 (S : Store) : Prop := allTruthy ((S.attrs 0).getD []) ["CLASS", "VERSION", "PYTHON_VERSION"] = false

theorem optPrefix (l : List Char) : ("OPTION_".toList ++ l).take 7 = "OPTION_".toList := by
  have : "OPTION_".toList = ['O', 'P', 'T', 'I', 'O', 'N', '_'] := by decide
  rw [this]; simp

theorem optAttr_ne (o k : String) (h : k.toList.take 7 ≠ "OPTION_".toList) : k ≠ optAttr o := by
  intro e
  refine h ?_
  subst e
  unfold optAttr
  rw [String.toList_ofList]
  exact optPrefix _

theorem NoV3.keep {S S' : Store} {q} (h : NoV3 S) (hT : Tree S) (hc : Chg q S S') : NoV3 S' := by
  obtain ⟨ls, hl⟩ := hT.root
  obtain ⟨nd, h1, _⟩ := Store.links_eq hl
  obtain ⟨nd', k1, _, _, _, _, _, k2⟩ := hc.keep 0 nd h1
  unfold NoV3 at *
  simp only [Store.attrs, h1, k1, Option.map_some, Option.getD_some] at h ⊢
  rw [← h]
  have ne : ∀ k, k ∈ ["CLASS", "VERSION", "PYTHON_VERSION"] → ¬ RootKey k := by
    rintro k hk (rfl | rfl | ⟨o, rfl⟩)
    · simp at hk
    · simp at hk
    · simp only [List.mem_cons, List.not_mem_nil, or_false] at hk
      rcases hk with hk | hk | hk
      · exact optAttr_ne o "CLASS" (by decide) hk.symm
      · exact optAttr_ne o "VERSION" (by decide) hk.symm
      · exact optAttr_ne o "PYTHON_VERSION" (by decide) hk.symm
  simp only [allTruthy, List.all_cons, List.all_nil, Bool.and_true]
  rw [k2 "CLASS" (ne _ (by simp)), k2 "VERSION" (ne _ (by simp)), k2 "PYTHON_VERSION" (ne _ (by simp))]

/-! ### loading a stored object -/

theorem optMaps_custom : ∀ (os : List String) (pre : List Opt), (∀ o ∈ os, o = "custom") → (∀ o ∈ pre, o = some "custom") →
    ∃ pre', optMaps os (pre ++ [none]) = .ok (pre' ++ [none]) ∧ ∀ o ∈ pre', o = some "custom" := by
  intro os
  induction os with
  | nil => exact fun pre _ h => ⟨pre, rfl, h⟩
  | cons o os ih =>
    intro pre h1 h2
    have ho := h1 o (by simp); subst ho
    simp only [optMaps, show validOption "custom" = true from rfl, if_true]
    exact ih (some "custom" :: pre) (fun o ho => h1 o (by simp [ho])) (by simpa using h2)

theorem optMaps_ok {os : List String} (h : ∀ o ∈ os, o = "custom") : ∃ maps, optMaps os [none] = .ok maps ∧ (Manager.mk maps).Ok := by
  obtain ⟨pre, h1, h2⟩ := optMaps_custom os [] h (by simp)
  exact ⟨_, h1, pre, rfl, h2⟩

/-- reading the types table of a dump: it succeeds and what the manager then knows agrees with it -/
theorem refEntries_ok {env : Env} {S : Store} (es : List (PyStr × NodeId)) : ∀ m : RefMgr,
    (∀ e ∈ es, ∃ nd, S[e.2]? = some nd ∧ (nd.body = .dset (.null "S1") ∨ ∃ cls, nd.body = .dset (.pickleCls cls) ∧ EntryOk env S cls e.2)) →
    TcOk env S m.tc → ∃ m', refEntries env S m es = .ok m' ∧ TcOk env S m'.tc ∧ m'.table = m.table := by
  induction es with
  | nil => exact fun m _ h => ⟨m, rfl, h, rfl⟩
  | cons e es ih =>
    intro m h htc
    have hstep : ∃ m1, refEntry env S m e = .ok m1 ∧ TcOk env S m1.tc ∧ m1.table = m.table := by
      obtain ⟨nd, h1, h2⟩ := h e (by simp)
      unfold refEntry
      rw [h1]
      simp only []
      rcases h2 with h2 | ⟨cls, h2, nd1, b, bn, k1, k2, k3, k4, k5⟩
      · rw [h2]
        simp only [if_true]
        exact ⟨_, rfl, htc, rfl⟩
      · rw [h1] at k1; simp at k1; subst k1
        have put : ∀ ti : TypeInfo, ti = typeInfo env cls → TcOk env S (Assoc.put m.tc e.2 ti) := by
          intro ti hti e' ti' cls' g1 g2
          by_cases he : e' = e.2
          · subst he
            rw [Assoc.get?_put_self] at g1; simp at g1; subst g1
            obtain ⟨nd2, _, _, q1, q2, _⟩ := g2
            rw [h1] at q1; simp at q1; subst q1
            rw [k2] at q2; simp at q2; subst q2
            exact hti
          · rw [Assoc.get?_put_ne _ _ (Ne.symm he)] at g1
            exact htc e' ti' cls' g1 g2
        rw [k2]
        simp only [reduceCtorEq, if_false, k3, k4]
        split
        · next hi => exact ⟨_, rfl, put _ (by unfold typeInfo; rw [if_pos hi, k5, unps_ps]), rfl⟩
        · next hni => exact ⟨_, rfl, put _ (by unfold typeInfo; rw [if_neg hni, k5, unps_ps]), rfl⟩
    obtain ⟨m1, k1, k2, k3⟩ := hstep
    obtain ⟨m', k4, k5, k6⟩ := ih m1 (fun e he => h e (by simp [he])) k2
    refine ⟨m', ?_, k5, k6.trans k3⟩
    simp only [refEntries, k1]; exact k4

theorem route_current {fa ga : Attrs} (h : RootAttrs ga) (hv : allTruthy fa ["CLASS", "VERSION", "PYTHON_VERSION"] = false) : route fa ga = .current := by
  obtain ⟨v, hpy, ht⟩ := h.py
  have h2 : allTruthy ga ["HICKLE_VERSION", "HICKLE_PYTHON_VERSION"] = true := by
    simp only [allTruthy, List.all_cons, List.all_nil, h.ver, hpy, ht, Bool.and_true]
    decide
  unfold route
  rw [hv, h2, h.ver]
  have h3 : majorVersion (.bytes hickleVersion) = .ok 5 := by
    have : parseInt (("5.0.3".toList.takeWhile (· ≠ '.')).map Char.toNat) = some 5 := by decide
    simp only [majorVersion, hickleVersion, this]
  simp only [Bool.false_eq_true, if_false, if_true, h3]
  rfl

/-- `load` of a stored object, whatever classes are missing: it succeeds from every state of the process
in which no other call is in progress for the file, in every order in which HDF5 lists the links; the
file stays as it is. -/
theorem Stored.recovers {env : Env} {p : List PyStr} {H0 : Heap} {a : Addr} {S : Store} (h : Stored env S p H0 a) (hE : EnvOk P env)
    (hg : GoodGraph P env H0) {rk : Addr → Nat} (hr : Ranked H0 rk) (ha : a < H0.length) (hv : NoV3 S) :
    ∃ depth, ∀ s : Session, s.store = S → s.ldr = false → s.ref = false → RegInv P s.reg →
    ∀ order : List (PyStr × NodeId) → List (PyStr × NodeId), (∀ l, (order l).Perm l) → ∀ fuel, depth ≤ fuel →
    ∃ L b s', loadTop ⟨env, p, order, fuel⟩ s = (.ok (L, b), s') ∧ RecoveredCopy env H0 L b a ∧ s' = { s with reg := s'.reg } ∧
      RegInv P s'.reg ∧ (GoodHeap P env H0 → Copy H0 L b a ∧ GoodHeap P env L) ∧ Ranked L id ∧ b < L.length := by
  obtain ⟨H, W, g, T, m, N, M', h⟩ := h
  refine ⟨2 * ((H.length + 2) * (rk a + 1)) + 2, ?_⟩
  rintro s rfl hl hf hreg order hord fuel hfuel
  obtain ⟨ls, hls, hd, ht⟩ := h.data
  obtain ⟨at', hat, hra⟩ := h.attrs
  obtain ⟨es, hes, htab⟩ := h.tab
  obtain ⟨maps, hmaps, hmok⟩ := optMaps_ok hra.opts
  -- the loader manager
  have e1 : loaderEnter g none s = (.ok ⟨maps⟩, { s with ldr := true }) := by
    unfold loaderEnter
    rw [M.bind_of_ok (M.get_apply s), hl]
    simp only [Bool.false_eq_true, if_false]
    have hm := optionMaps_none g s
    rw [hat, Option.getD_some, hmaps] at hm
    rw [M.bind_of_ok hm]; rfl
  -- the reference manager
  obtain ⟨rm, e2, hrt, htc⟩ : ∃ rm : RefMgr, refEnter env g { s with ldr := true } = (.ok rm, { s with ldr := true, ref := true }) ∧
      rm.table = some T ∧ TcOk env s.store rm.tc := by
    unfold refEnter
    rw [M.bind_of_ok (M.get_apply _)]
    simp only [hf, Bool.false_eq_true, if_false]
    have hnil : TcOk env s.store ([] : List (NodeId × TypeInfo)) := by intro e ti cls hn; simp at hn
    have : ∃ rm : RefMgr, refInit env g { s with ldr := true } = (.ok rm, { s with ldr := true }) ∧ rm.table = some T ∧ TcOk env s.store rm.tc := by
      unfold refInit
      simp only [hls, ht, hes]
      cases hw : s.writable with
      | false => exact ⟨⟨some T, [], [], []⟩, by simp, rfl, hnil⟩
      | true =>
        obtain ⟨m', k1, k2, k3⟩ := refEntries_ok es ⟨some T, [], [], []⟩ htab hnil
        exact ⟨m', by simp [k1], k3, k2⟩
    obtain ⟨rm, k1, k2, k3⟩ := this
    rw [hf] at k1
    exact ⟨rm, by rw [M.bind_of_ok k1]; rfl, k2, k3⟩
  obtain ⟨b, s1, e3, ⟨R, N, Q, hcopy⟩, hreg1, hgood, hrk⟩ := Dumped.recovers (c := ⟨env, ⟨maps⟩, s.store, order⟩) h.dumped hE hmok hord hg hr ha htc hreg hfuel dataName0
  have e4 : loadBodyTop ⟨env, p, order, fuel⟩ g ⟨maps⟩ rm { s with ldr := true, ref := true } =
      (.ok (s1.heap, b), { s with ldr := true, ref := true, reg := s1.reg }) := by
    unfold loadBodyTop
    unfold loadInit at e3
    simp only [hls, hd, e3]
  have e5 : loadTry ⟨env, p, order, fuel⟩ s = (.ok (s1.heap, b), { s with reg := s1.reg }) := by
    unfold loadTry
    rw [M.bind_of_ok (M.get_apply s)]
    simp only [h.path, h.res, hls, hat, Option.getD_some, route_current hra hv]
    rw [M.bind_of_ok e1]
    unfold loaderExit
    rw [finally'_modify, M.bind_of_ok e2]
    unfold refExit
    rw [finally'_modify, e4, hrt]
    simp only [Option.isSome_some, if_true]
    cases s
    simp only at hl hf
    subst hl hf
    rfl
  refine ⟨s1.heap, b, { s with reg := s1.reg }, ?_, hcopy.restrict h.dumped.pre ha hg, rfl, hreg1,
    fun hgh => ⟨Dumped.load (c := ⟨env, ⟨maps⟩, s.store, order⟩) h.dumped hgh ha ⟨R, N, Q, hcopy⟩, hgood hgh⟩, hrk⟩
  unfold loadTop
  rw [M.bind_of_ok (M.attempt_apply _ _), e5]
  rfl

/-- **`load` of a stored object** gives a copy of it, from every state of the process in which no
other call is in progress for the file, in every order in which HDF5 lists the links; the file
stays as it is. -/
theorem Stored.load {env : Env} {p : List PyStr} {H0 : Heap} {a : Addr} {S : Store} (h : Stored env S p H0 a) (hE : EnvOk P env)
    (hg : GoodHeap P env H0) {rk : Addr → Nat} (hr : Ranked H0 rk) (ha : a < H0.length) (hv : NoV3 S) :
    ∃ depth, ∀ s : Session, s.store = S → s.ldr = false → s.ref = false → RegInv P s.reg →
    ∀ order : List (PyStr × NodeId) → List (PyStr × NodeId), (∀ l, (order l).Perm l) → ∀ fuel, depth ≤ fuel →
    ∃ L b s', loadTop ⟨env, p, order, fuel⟩ s = (.ok (L, b), s') ∧ Copy H0 L b a ∧ s' = { s with reg := s'.reg } ∧ RegInv P s'.reg ∧
      GoodHeap P env L ∧ Ranked L id ∧ b < L.length := by
  obtain ⟨depth, hd⟩ := h.recovers hE hg.toGraph hr ha hv
  refine ⟨depth, fun s h1 h2 h3 h4 order ho fuel hf => ?_⟩
  obtain ⟨L, b, s', e1, _, e3, e4, e5, e6⟩ := hd s h1 h2 h3 h4 order ho fuel hf
  obtain ⟨e7, e8⟩ := e5 hg
  exact ⟨L, b, s', e1, e7, e3, e4, e8, e6⟩

/-! ### a successful dump stores the object -/

theorem mem_attrItems {l : Attrs} {p} (h : p ∈ attrItems l) : p ∈ l := by
  induction l with
  | nil => exact h
  | cons q l ih =>
    simp only [attrItems, List.mem_cons, List.mem_filter] at h ⊢
    rcases h with h | ⟨h, _⟩
    · exact .inl h
    · exact .inr (ih h)

theorem mem_attrOptions_put {l : Attrs} {k v o} (h : o ∈ attrOptions (Assoc.put l k v)) : optName k = some o ∨ o ∈ attrOptions l := by
  simp only [attrOptions, Assoc.put, attrItems, List.mem_filterMap, List.mem_cons, List.mem_filter] at h ⊢
  obtain ⟨p, hp, ho⟩ := h
  rcases hp with rfl | ⟨hp, _⟩
  · refine .inl ?_
    split at ho
    · exact ho
    · simp at ho
  · exact .inr ⟨p, hp, ho⟩

theorem verText_truthy (v) : (AttrVal.bytes (verText v)).truthy = true := by
  obtain ⟨x, y, z⟩ := v
  have h := digits_ne_nil x
  simp only [AttrVal.truthy, verText]
  cases hd : digits x with
  | nil => exact absurd hd h
  | cons c cs => simp [unps]

/-- the group `g` at the path is empty and carries attributes as described by `Q` -/
structure Ready (path : List PyStr) (g : NodeId) (Q : Attrs → Prop) (s0 s : Session) : Prop where
  tree : Tree s.store
  res : s.store.resolve 0 path = some g
  empty : s.store.links g = some []
  attrs : ∃ at', s.store.attrs g = some at' ∧ Q at'
  rest : s = { s0 with store := s.store }

theorem Store.resolve_congr {S S' : Store} (h : ∀ n, S'.links n = S.links n) (n : NodeId) (xs : List PyStr) : S'.resolve n xs = S.resolve n xs := by
  induction xs generalizing n with
  | nil => rfl
  | cons x xs ih => simp only [Store.resolve, h]; cases S.links n <;> simp only []; split <;> simp [*]

theorem Ready.set {path g Q s0 s} {Q' : Attrs → Prop} {k v} (h : Ready path g Q s0 s) (hq : ∀ at', Q at' → Q' (Assoc.put at' k v)) :
    ∃ s1, sSetAttr g k v s = (.ok (), s1) ∧ Ready path g Q' s0 s1 := by
  refine ⟨_, rfl, h.tree.setAttr, ?_, ?_, ?_, ?_⟩
  · show (s.store.setAttr g k v).resolve 0 path = some g
    rw [Store.resolve_congr (fun n => Store.links_setAttr s.store g n k v)]; exact h.res
  · show (s.store.setAttr g k v).links g = some []
    rw [Store.links_setAttr]; exact h.empty
  · obtain ⟨at', h1, h2⟩ := h.attrs
    refine ⟨_, ?_, hq at' h2⟩
    show (s.store.setAttr g k v).attrs g = _
    unfold Store.attrs at h1 ⊢
    cases hn : s.store[g]? with
    | none => rw [hn] at h1; simp at h1
    | some nd =>
      rw [hn] at h1; simp at h1; subst h1
      rw [Store.getElem?_setAttr_self hn]; rfl
  · show ({ s with store := s.store.setAttr g k v } : Session) = _
    rw [h.rest]

theorem setOptions_ready {path g s0} (os : List (String × Bool)) (hos : ("hickle-4.x", true) ∉ os) : ∀ {s maps r s'},
    Ready path g RootAttrs s0 s → (Manager.mk maps).Ok → setOptions g os maps s = (.ok r, s') → Ready path g RootAttrs s0 s' ∧ (Manager.mk r).Ok := by
  induction os with
  | nil =>
    intro s maps r s' h hm he
    simp only [setOptions] at he
    obtain ⟨rfl, rfl⟩ : maps = r ∧ s = s' := by simpa using he
    exact ⟨h, hm⟩
  | cons o os ih =>
    obtain ⟨k, on⟩ := o
    have hos' : ("hickle-4.x", true) ∉ os := fun h => hos (by simp [h])
    intro s maps r s' h hm he
    cases on with
    | false => simp only [setOptions, Bool.false_eq_true, if_false] at he; exact ih hos' h hm he
    | true =>
      simp only [setOptions, if_true] at he
      by_cases hv : validOption k = true
      · have hk : k = "custom" := by
          simp only [validOption, Bool.or_eq_true, decide_eq_true_eq] at hv
          rcases hv with hv | hv
          · exact hv
          · subst hv; simp at hos
        subst hk
        obtain ⟨s1, e1, h1⟩ := h.set (Q' := RootAttrs) (k := optAttr "custom") (v := .bool true) (fun at' ha => by
          obtain ⟨v, hv1, hv2⟩ := ha.py
          refine ⟨?_, ⟨v, ?_, hv2⟩, ?_⟩
          · rw [Assoc.get?_put_ne _ _ (by decide)]; exact ha.ver
          · rw [Assoc.get?_put_ne _ _ (by decide)]; exact hv1
          · intro o ho
            rcases mem_attrOptions_put ho with ho | ho
            · have : optName (optAttr "custom") = some "custom" := by decide
              rw [this] at ho; simpa using ho.symm
            · exact ha.opts o ho)
        rw [M.bind_of_ok e1, if_pos hv] at he
        refine ih hos' h1 ?_ he
        obtain ⟨pre, p1, p2⟩ := hm
        exact ⟨some "custom" :: pre, by simp only at p1 ⊢; rw [p1]; rfl, by simpa using p2⟩
      · obtain ⟨s1, e1, h1⟩ := h.set (Q' := fun _ => True) (k := optAttr k) (v := .bool true) (fun _ _ => trivial)
        rw [M.bind_of_ok e1, if_neg hv] at he
        simp at he

/-- the options neither of the call nor left over on the group switch on the loaders of hickle 4 -/
structure OptsOk (a : DumpArgs) (S : Store) : Prop where
  call : ∀ os, a.options = some os → ("hickle-4.x", true) ∉ os
  stale : ∀ g at', S.resolve 0 a.path = some g → S.attrs g = some at' → ∀ o ∈ attrOptions at', o = "custom"

/-- The state in which a `dump` that returned called `_dump`, and the file it left.  `st`: the file at
this point, `g`: the group, `sd`: the state after the call. -/
structure DumpCall (a : DumpArgs) (s : Session) (c : DCtx) (g : NodeId) (st : Store) (sd : DState) : Prop where
  env : c.env = a.env
  mgr : c.mgr.Ok
  path : pathOk a.path = .ok ()
  res : st.resolve 0 a.path = some g
  tree : Tree st
  links : st.links g = some [(tableName, c.table)]
  table : st.links c.table = some []
  lt : c.table < st.length
  attrs : ∃ at', st.attrs g = some at' ∧ RootAttrs at'
  call : dumpNode c a.fuel a.obj g dataName0 [] { heap := a.heap, store := st, tlinks := [], blinks := [], reg := s.reg } = (.ok (), sd)

theorem DumpCall.ne {a : DumpArgs} {s : Session} {c : DCtx} {g : NodeId} {st : Store} {sd : DState} (h : DumpCall a s c g st sd) : g ≠ c.table := by
  intro e
  have := h.links
  rw [e, h.table] at this; simp at this

theorem DumpCall.tinv {a : DumpArgs} {s : Session} {c : DCtx} {g : NodeId} {st : Store} {sd : DState} (h : DumpCall a s c g st sd) :
    TInv c { heap := a.heap, store := st, tlinks := [], blinks := [], reg := s.reg } :=
  { tab := ⟨[], h.table⟩, tl := by intro cls e hn; simp at hn, bl := by intro b n hn; simp at hn
    ents := by
      intro ls hls p hp
      have hls' : st.links c.table = some ls := hls
      rw [h.table] at hls'
      simp at hls'; subst hls'; simp at hp }

theorem dumpTop_call {a : DumpArgs} {s s' : Session} (hT : Tree s.store) (ho : OptsOk a s.store)
    (h : dumpTop a s = (.ok (), s')) : ∃ c g st sd, DumpCall a s c g st sd ∧ s'.store = sd.store := by
  unfold dumpTop at h
  rw [M.bind_of_ok (M.get_apply s)] at h
  cases hw : s.writable with
  | false => rw [hw] at h; simp at h
  | true =>
  rw [hw] at h
  simp only [Bool.not_true, Bool.false_eq_true, if_false] at h
  cases hd : dumpGroup a.path s with
  | mk x s1 =>
  cases x with
  | error e => rw [M.bind_of_error hd] at h; simp at h
  | ok g =>
  rw [M.bind_of_ok hd] at h
  have hpath : pathOk a.path = .ok () := by
    unfold dumpGroup at hd
    cases hp : pathOk a.path with
    | error e => rw [hp] at hd; simp at hd
    | ok u => rfl
  obtain ⟨ht, hs1⟩ := dumpGroup_ok hd
  -- the attributes of the group
  have hQ : ∃ at', s1.store.attrs g = some at' ∧ ∀ o ∈ attrOptions at', o = "custom" := by
    obtain ⟨nd, hn, _⟩ := Store.links_eq ht.empty
    have hat : s1.store.attrs g = some nd.attrs := by simp [Store.attrs, hn]
    refine ⟨nd.attrs, hat, ?_⟩
    rw [ht.attrs] at hat
    split at hat
    · next hlt =>
      rcases ht.place with hp | ⟨⟨q1, hq, hr⟩, _⟩
      · omega
      · have hr2 : s1.store.resolve 0 q1 = some g := Store.resolve_ext ht.chg.glinks hr
        have : q1 = a.path := (ht.chg.tree hT).path_unique _ _ hr2 ht.res
        subst this
        exact ho.stale g _ hr hat
    · simp at hat; rw [hat]; simp [attrOptions, attrItems]
  have r1 : Ready a.path g (fun at' => ∀ o ∈ attrOptions at', o = "custom") s s1 := ⟨ht.chg.tree hT, ht.res, ht.empty, hQ, hs1⟩
  obtain ⟨s2, e2, r2⟩ := r1.set (k := "HICKLE_VERSION") (v := .bytes hickleVersion)
    (Q' := fun at' => Assoc.get? at' "HICKLE_VERSION" = some (.bytes hickleVersion) ∧ ∀ o ∈ attrOptions at', o = "custom") (fun at' hq => by
      refine ⟨Assoc.get?_put_self _ _ _, fun o ho => ?_⟩
      rcases mem_attrOptions_put ho with ho | ho
      · have : optName "HICKLE_VERSION" = none := by decide
        rw [this] at ho; simp at ho
      · exact hq o ho)
  rw [M.bind_of_ok e2] at h
  obtain ⟨s3, e3, r3⟩ := r2.set (k := "HICKLE_PYTHON_VERSION") (v := .bytes (verText a.pyver)) (Q' := RootAttrs) (fun at' hq => by
      refine ⟨?_, ⟨_, Assoc.get?_put_self _ _ _, verText_truthy _⟩, fun o ho => ?_⟩
      · rw [Assoc.get?_put_ne _ _ (by decide)]; exact hq.1
      · rcases mem_attrOptions_put ho with ho | ho
        · have : optName "HICKLE_PYTHON_VERSION" = none := by decide
          rw [this] at ho; simp at ho
        · exact hq.2 o ho)
  rw [M.bind_of_ok e3] at h
  -- the loader manager
  cases hle : loaderEnter g a.options s3 with
  | mk x s4 =>
  cases x with
  | error e => rw [M.bind_of_error hle] at h; simp at h
  | ok mgr =>
  rw [M.bind_of_ok hle] at h
  obtain ⟨s3', r4, hmgr, hs4⟩ : ∃ s3', Ready a.path g RootAttrs s s3' ∧ mgr.Ok ∧ s4 = { s3' with ldr := true } := by
    unfold loaderEnter at hle
    rw [M.bind_of_ok (M.get_apply s3)] at hle
    split at hle
    · simp at hle
    · cases hx : optionMaps g a.options s3 with
      | mk y s3' =>
      cases y with
      | error e => rw [M.bind_of_error hx] at hle; simp at hle
      | ok maps =>
        rw [M.bind_of_ok hx, M.bind_of_ok (M.modify_apply _ _)] at hle
        simp at hle
        obtain ⟨rfl, rfl⟩ := hle
        cases hopt : a.options with
        | none =>
          rw [hopt, optionMaps_none] at hx
          obtain ⟨at', h1, h2⟩ := r3.attrs
          obtain ⟨maps', k1, k2⟩ := optMaps_ok h2.opts
          rw [h1, Option.getD_some, k1] at hx
          simp at hx
          obtain ⟨rfl, rfl⟩ := hx
          exact ⟨_, r3, k2, rfl⟩
        | some os =>
          rw [hopt] at hx
          obtain ⟨k1, k2⟩ := setOptions_ready os (ho.call os hopt) r3 ⟨[], rfl, by simp⟩ hx
          exact ⟨_, k1, k2, rfl⟩
  unfold loaderExit at h
  rw [finally'_modify] at h
  obtain ⟨hin, hst⟩ := Prod.mk.inj h
  rw [← hst]
  simp only
  -- the reference manager
  cases hre : refEnter a.env g s4 with
  | mk x s5 =>
  cases x with
  | error e => rw [M.bind_of_error hre] at hin; simp at hin
  | ok rm =>
  rw [M.bind_of_ok hre] at hin ⊢
  unfold refExit at hin ⊢
  rw [finally'_modify] at hin ⊢
  simp only at hin ⊢
  have hw4 : s4.writable = true := by rw [hs4]; show s3'.writable = true; rw [r4.rest]; exact hw
  have hst4 : s4.store = s3'.store := by rw [hs4]
  have hreg4 : s4.reg = s.reg := by rw [hs4]; show s3'.reg = s.reg; rw [r4.rest]
  have hl4 : s4.store.links g = some [] := by rw [hst4]; exact r4.empty
  obtain ⟨T, st, hcr, rfl, hs5⟩ : ∃ T st, s4.store.create g tableName (.group []) = .ok (T, st) ∧ rm = ⟨some T, [], [], []⟩ ∧
      s5 = { s4 with store := st, ref := true } := by
    unfold refEnter at hre
    rw [M.bind_of_ok (M.get_apply s4)] at hre
    split at hre
    · simp at hre
    · cases hc : s4.store.create g tableName (.group []) with
      | error e =>
        have : refInit a.env g s4 = (.error e, s4) := by
          unfold refInit; simp only [hl4, Assoc.get?_nil, hw4, if_true, hc]
        rw [M.bind_of_error this] at hre; simp at hre
      | ok p =>
        obtain ⟨T, st⟩ := p
        have : refInit a.env g s4 = (.ok ⟨some T, [], [], []⟩, { s4 with store := st }) := by
          unfold refInit; simp only [hl4, Assoc.get?_nil, hw4, if_true, hc]
        rw [M.bind_of_ok this, M.bind_of_ok (M.modify_apply _ _)] at hre
        simp at hre
        exact ⟨T, st, rfl, hre.1.symm, hre.2.symm⟩
  obtain ⟨ls0, c1, c2, c3, c4, c5, c6⟩ := Store.create_links rfl hcr
  rw [hl4] at c1; simp at c1; subst c1
  simp only [List.nil_append] at c2
  obtain ⟨_, _, _, _, _, _, _, _, _, cT, _⟩ := Store.create_ok hcr
  have hlT : st.links T = some [] := Store.links_of cT rfl
  have htree : Tree st := Tree.create (by rw [hst4]; exact r4.tree) rfl hcr
  have hgT : g ≠ T := by
    intro e
    rw [e, hlT] at c2; simp at c2
  have hresg : st.resolve 0 a.path = some g :=
    Store.resolve_ext (SExt.create hcr).links (by rw [hst4]; exact r4.res)
  have hattr : ∃ at', st.attrs g = some at' ∧ RootAttrs at' := by
    obtain ⟨at', h1, h2⟩ := r4.attrs
    rw [← hst4] at h1
    unfold Store.attrs at h1 ⊢
    cases hn : s4.store[g]? with
    | none => rw [hn] at h1; simp at h1
    | some nd =>
      rw [hn] at h1; simp at h1; subst h1
      obtain ⟨nd', k1, k2⟩ := SExt.create hcr g nd hn
      exact ⟨nd.attrs, by rw [k1]; simp [k2.attrs], h2⟩
  -- the dump itself
  unfold dumpData at hin ⊢
  rw [hs5] at hin ⊢
  simp only at hin ⊢
  let c : DCtx := ⟨a.env, mgr, a.kw, T⟩
  let s0 : DState := { heap := a.heap, store := st, tlinks := [], blinks := [], reg := s4.reg }
  cases hdn : dumpNode c a.fuel a.obj g dataName0 [] s0 with
  | mk x sd =>
  change (dumpNode c a.fuel a.obj g dataName0 [] s0).1 = _ at hin
  rw [hdn] at hin
  simp only at hin
  subst hin
  refine ⟨c, g, st, sd, ⟨rfl, hmgr, hpath, hresg, htree, c2, hlT, lt_of_getElem? cT, hattr, ?_⟩, rfl⟩
  rw [← hreg4]; exact hdn

/-- **a successful `dump` stores the object** -/
theorem dumpTop_stored {a : DumpArgs} {s s' : Session} (hE : EnvOk P a.env) (hP : ProtOk P a.env) (hreg : RegInv P s.reg) (hT : Tree s.store)
    (hcls : ∀ (x : Addr) (o : Obj), a.heap[x]? = some o → GoodCls P a.env o.cls) (ho : OptsOk a s.store)
    (h : dumpTop a s = (.ok (), s')) : Stored a.env s'.store a.path a.heap a.obj := by
  obtain ⟨c, g, st, sd, hc, hst⟩ := dumpTop_call hT ho h
  rw [hst]
  have hti := hc.tinv
  have hgT := hc.ne
  obtain ⟨henv, hmgr, hpath, hresg, htree, c2, hlT, hlt, hattr, hdn⟩ := hc
  obtain ⟨env, mgr, kw, T⟩ := c
  dsimp only at henv hmgr c2 hlT hlt hgT
  subst henv
  let s0 : DState := { heap := a.heap, store := st, tlinks := [], blinks := [], reg := s.reg }
  obtain ⟨W, m, ls, k1, k2, k3, k4, k5, k6, k7, _⟩ := dump_dumped (P := P) (c := ⟨a.env, mgr, kw, T⟩) hE hmgr (s := s0) rfl hreg hti hcls hgT hdn
  have h0 : Going P st.length g T dataName0 st a.heap s0 := ⟨.refl, Nat.le_refl _, hreg, List.prefix_rfl⟩
  have hgo := (dumpNode_keeps (c := ⟨a.env, mgr, kw, T⟩) hE hP a.fuel a.obj g dataName0 [] (.inl ⟨rfl, rfl⟩) _ h0).1
  rw [hdn] at hgo
  have k5' : st.links g = some ls := k5
  rw [c2] at k5'; simp at k5'; subst k5'
  simp only [List.cons_append, List.nil_append] at k6
  refine ⟨sd.heap, W, g, T, m, st.length, sd.store.length, hpath, ?_, ?_, ?_, ?_, ?_, ?_, Nat.le_refl _, ?_, k1, ?_⟩
  · exact Store.resolve_ext (SExt.links k4.ext) hresg
  · exact ⟨_, k6, by simp [Assoc.get?, show tableName ≠ dataName0 by decide], by simp [Assoc.get?]⟩
  · obtain ⟨at', h1, h2⟩ := hattr
    refine ⟨at', ?_, h2⟩
    unfold Store.attrs at h1 ⊢
    cases hn : st[g]? with
    | none => rw [hn] at h1; simp at h1
    | some nd =>
      rw [hn] at h1; simp at h1
      obtain ⟨nd', q1, q2⟩ := k4.ext g nd hn
      rw [q1]; simp [q2.attrs, h1]
  · obtain ⟨es, q1⟩ := k7.tab
    refine ⟨es, q1, fun e he => ?_⟩
    obtain ⟨nd, q2, q3⟩ := k7.ents es q1 e he
    refine ⟨nd, q2, q3.imp id ?_⟩
    rintro ⟨cls, q4, q5⟩
    exact ⟨cls, q4, k7.tl cls _ q5⟩
  · intro es q1 e he e' he' nd nd' cls q2 q2' q3 q3'
    obtain ⟨md, j1, j2⟩ := k7.ents es q1 e he
    obtain ⟨md', j1', j2'⟩ := k7.ents es q1 e' he'
    rw [q2] at j1; simp at j1; subst j1
    rw [q2'] at j1'; simp at j1'; subst j1'
    rw [q3] at j2; rw [q3'] at j2'
    simp at j2 j2'
    rw [j2] at j2'; simpa using j2'
  · omega
  · intro y ls hy e he h1 h2
    rcases hgo.grow.links (Nat.le_refl _) y ls hy e he with ⟨ls1, q1, q2⟩ | ⟨_, q⟩
    · have := (htree.up y ls1 q1 e q2).2; omega
    · exact q
  · intro n b hwn
    refine ⟨(k2 n b hwn).1, ?_⟩
    obtain ⟨o, nd, _, _, _, q, _⟩ := k1.nodes n b hwn
    exact lt_of_getElem? q

end Verif
