import Verif.Hickle.Nest
/-!
# The file after a successful dump

`NodeOk`: how one object is represented by a node.  `dumpNode_spec`: a successful `_dump` adds to
a set of (node, object) pairs that all satisfy it.
-/
namespace Verif

/-- (node, object) pairs -/
abbrev Rel := NodeId → Addr → Prop

/-- type information of the node of an object of class `cls` -/
def TypeOk (env : Env) (S : Store) (cls : Cls) (at' : Attrs) : Prop :=
  ((expected env cls).1 = .object ∧ Assoc.get? at' "type" = none) ∨
  ((expected env cls).1 ≠ .object ∧ ∃ e, Assoc.get? at' "type" = some (.ref e) ∧ EntryOk env S cls e)

/-- `m` is the node of object `a`, or a reference to it; it carries the given attributes -/
def Child (S : Store) (W : Rel) (m : NodeId) (a : Addr) (attrs : Attrs) : Prop :=
  ∃ nd, S[m]? = some nd ∧ ((∀ p ∈ attrs, Assoc.get? nd.attrs p.1 = some p.2) ∧ Assoc.get? nd.attrs "base_type" = none) ∧
    (W m a ∨ ∃ t, nd.body = .dset (.ref t) ∧ Assoc.get? nd.attrs "type" = none ∧ W t a)

/-- the object a sub item stands for -/
def SubAt (base : Nat) (H : Heap) : SubObj → Addr → Prop
  | .addr a, b => b = a
  | .pair k v, p => base ≤ p ∧ H[p]? = some ⟨.tuple, .seq [k, v]⟩
  | .nest c sh ls, p => Nested base H c sh ls p

/-- the links of a group are the sub items, in order -/
inductive Kids (base : Nat) (H : Heap) (S : Store) (W : Rel) : List (PyStr × NodeId) → Subs → Prop
  | nil : Kids base H S W [] []
  | cons {sb a m ls subs} : (utf8Encode sb.name).isSome = true → SubAt base H sb.obj a → Child S W m a sb.attrs → Kids base H S W ls subs →
      Kids base H S W ((sb.name, m) :: ls) (.ok sb :: subs)

/-- node `n` represents object `a` -/
def NodeOk (env : Env) (base : Nat) (H : Heap) (S : Store) (W : Rel) (n : NodeId) (a : Addr) : Prop :=
  ∃ o nd od subs, H[a]? = some o ∧ S[n]? = some nd ∧ TypeOk env S o.cls nd.attrs ∧
    Head env H (expected env o.cls).2.fn o nd.attrs od subs ∧
    match od with
    | some d => nd.body = .dset d
    | none => ∃ ls, nd.body = .group ls ∧ Kids base H S W ls subs

/-! ### stability -/

theorem TypeOk.ext {env S S' cls at'} (hx : SExt S S') (h : TypeOk env S cls at') : TypeOk env S' cls at' := by
  rcases h with h | ⟨h, e, h1, h2⟩
  · exact .inl h
  · exact .inr ⟨h, e, h1, h2.ext hx⟩

theorem Child.mono {S S' : Store} {W W' : Rel} {m a attrs} (hx : SExt S S') (hW : ∀ n a, W n a → W' n a)
    (h : Child S W m a attrs) : Child S' W' m a attrs := by
  obtain ⟨nd, h1, h2, h3⟩ := h
  obtain ⟨nd', e1, l1⟩ := hx _ _ h1
  refine ⟨nd', e1, by rw [l1.attrs]; exact h2, ?_⟩
  rcases h3 with h3 | ⟨t, h3, h4, h5⟩
  · exact .inl (hW _ _ h3)
  · exact .inr ⟨t, l1.dset _ h3, by rw [l1.attrs]; exact h4, hW _ _ h5⟩

theorem getElem?_prefix {α : Type} {l l' : List α} (h : l <+: l') {i : Nat} {x : α} (hx : l[i]? = some x) :
    l'[i]? = some x := by
  obtain ⟨t, rfl⟩ := h
  rw [List.getElem?_append_left (lt_of_getElem? hx)]; exact hx

theorem SubAt.mono {base : Nat} {H H' : Heap} {so a} (hp : H <+: H') (h : SubAt base H so a) : SubAt base H' so a := by
  cases so with
  | addr x => exact h
  | pair k v => exact ⟨h.1, getElem?_prefix hp h.2⟩
  | nest c sh ls => exact Nested.mono hp h

theorem Kids.mono {base : Nat} {H H' : Heap} {S S' : Store} {W W' : Rel} {ls subs} (hp : H <+: H') (hx : SExt S S')
    (hW : ∀ n a, W n a → W' n a) (h : Kids base H S W ls subs) : Kids base H' S' W' ls subs := by
  induction h with
  | nil => exact .nil
  | cons h0 h1 h2 _ ih => exact .cons h0 (h1.mono hp) (h2.mono hx hW) ih

theorem Kids.append {base : Nat} {H : Heap} {S : Store} {W : Rel} {ls subs ls' subs'}
    (h : Kids base H S W ls subs) (h' : Kids base H S W ls' subs') : Kids base H S W (ls ++ ls') (subs ++ subs') := by
  induction h with
  | nil => exact h'
  | cons h0 h1 h2 _ ih => exact .cons h0 h1 h2 ih

theorem Kids.ok {base : Nat} {H : Heap} {S : Store} {W : Rel} {ls subs} (h : Kids base H S W ls subs) :
    ∀ x ∈ subs, ∃ sb, x = .ok sb := by
  induction h with
  | nil => simp
  | cons _ _ _ _ ih =>
    intro x hx
    rcases List.mem_cons.1 hx with rfl | hx
    · exact ⟨_, rfl⟩
    · exact ih x hx

theorem castItem_mono {H H' : Heap} {d a v} (hp : H <+: H') (h : castItem H d a = some v) : castItem H' d a = some v := by
  unfold castItem at h ⊢
  split at h
  · next o ho => rw [getElem?_prefix hp ho]; exact h
  · simp at h

theorem mapM_castItem_mono {H H' : Heap} {d : DT} {items : List Addr} {vs} (hp : H <+: H') (h : items.mapM (castItem H d) = some vs) :
    items.mapM (castItem H' d) = some vs := by
  induction items generalizing vs with
  | nil => simpa using h
  | cons a as ih =>
    simp only [List.mapM_cons, Option.bind_eq_bind, Option.bind_eq_some_iff, Option.pure_def, Option.some.injEq] at h ⊢
    obtain ⟨v, h1, vs', h2, rfl⟩ := h
    exact ⟨v, castItem_mono hp h1, vs', ih h2, rfl⟩

theorem dictSub_mono {env : Env} {H H' : Heap} {i k v sb} (hp : H <+: H') (h : dictSub env H i k v = .ok sb) :
    dictSub env H' i k v = .ok sb := by
  unfold dictSub at h ⊢
  cases hk : H[k]? with
  | none => simp [hk] at h
  | some o => simp only [hk] at h; rw [getElem?_prefix hp hk]; exact h

theorem dictSubs_mono {env : Env} {H H' : Heap} {i es} (hp : H <+: H') (h : ∀ x ∈ dictSubs env H i es, ∃ sb, x = .ok sb) :
    dictSubs env H' i es = dictSubs env H i es := by
  induction es generalizing i with
  | nil => rfl
  | cons p es ih =>
    obtain ⟨k, v⟩ := p
    simp only [dictSubs, List.mem_cons, forall_eq_or_imp] at h ⊢
    obtain ⟨⟨sb, hs⟩, h2⟩ := h
    rw [ih h2, hs, dictSub_mono hp hs]

theorem SeqHead.mono {H H' : Heap} {items : List Addr} {at' od subs} (hp : H <+: H') (h : SeqHead H items at' od subs) :
    SeqHead H' items at' od subs := by
  cases h with
  | nil h1 => exact .nil h1
  | vec h2 h3 h4 =>
    obtain ⟨a, ha, p, v, e1, e2⟩ := h4
    exact .vec h2 (mapM_castItem_mono hp h3) ⟨a, ha, p, v, getElem?_prefix hp e1, e2⟩
  | items h2 h3 h4 =>
    obtain ⟨a, ha, p, e1, e2⟩ := h3
    exact .items h2 ⟨a, ha, p, getElem?_prefix hp e1, e2⟩ h4

theorem SeqHead.attrs {H : Heap} {items : List Addr} {at' at'' od subs} (h2 : Assoc.get? at'' "num_items" = Assoc.get? at' "num_items")
    (h : SeqHead H items at' od subs) : SeqHead H items at'' od subs := by
  cases h with
  | nil h1 => exact .nil h1
  | vec a b d => exact .vec a b d
  | items a b d => exact .items a b (h2 ▸ d)

theorem OList.mono {env : Env} {H H' : Heap} {o l} (hp : H <+: H') (h : OList env H o l) : OList env H' o l := by
  cases h with
  | one h => exact .one h
  | zero h1 h2 h3 => exact .zero h1 (getElem?_prefix hp h2) h3

theorem Head.mono {env : Env} {H H' : Heap} {fn o at' od subs} (hp : H <+: H')
    (hs : ∀ x ∈ subs, ∃ sb, x = Except.ok sb) (h : Head env H fn o at' od subs) : Head env H' fn o at' od subs := by
  cases h with
  | intBig h1 h2 h3 => exact .intBig h1 h2 h3
  | int h1 h2 => exact .int h1 h2
  | bool h1 => exact .bool h1
  | float h1 => exact .float h1
  | cplx h1 => exact .cplx h1
  | none => exact .none
  | str h1 h2 h3 => exact .str h1 h2 h3
  | bytes h1 h2 => exact .bytes h1 h2
  | seqNil h1 => exact .seqNil h1
  | setNil h1 => exact .setNil h1
  | seqVec h1 h2 h3 h4 =>
    obtain ⟨a, ha, p, v, e1, e2⟩ := h4
    exact .seqVec h1 h2 (mapM_castItem_mono hp h3) ⟨a, ha, p, v, getElem?_prefix hp e1, e2⟩
  | setVec h1 h2 h3 h4 =>
    obtain ⟨a, ha, p, v, e1, e2⟩ := h4
    exact .setVec h1 h2 (mapM_castItem_mono hp h3) ⟨a, ha, p, v, getElem?_prefix hp e1, e2⟩
  | seqItems h1 h2 h3 h4 =>
    obtain ⟨a, ha, p, e1, e2⟩ := h3
    exact .seqItems h1 h2 ⟨a, ha, p, getElem?_prefix hp e1, e2⟩ h4
  | setItems h1 h2 h3 =>
    obtain ⟨a, ha, p, e1, e2⟩ := h3
    exact .setItems h1 h2 ⟨a, ha, p, getElem?_prefix hp e1, e2⟩
  | dict h1 => rw [← dictSubs_mono hp hs]; exact .dict h1
  | np h1 h2 => exact .np h1 h2
  | arr h1 h2 => exact .arr h1 h2
  | sstr h1 h2 h3 => exact .sstr h1 h2 h3
  | rowsNil h1 h2 => exact .rowsNil h1 h2
  | rows h1 h2 h3 h4 h5 => exact .rows h1 h2 h3 h4 h5
  | oseq h1 h2 h3 => exact .oseq (h1.mono hp) h2 (h3.mono hp)
  | oone h1 h2 h3 h4 h5 => exact .oone h1 (getElem?_prefix hp h2) h3 h4 h5
  | masked h1 h2 => exact .masked h1 h2
  | sparse h1 h2 => exact .sparse h1 h2
  | pickled h1 => exact .pickled h1

/-- the create function's record only depends on the attributes it set itself -/
theorem Head.attrs {env : Env} {H : Heap} {fn o at' at'' od subs}
    (h1 : Assoc.get? at'' "str_type" = Assoc.get? at' "str_type")
    (h2 : Assoc.get? at'' "num_items" = Assoc.get? at' "num_items")
    (h3 : Assoc.get? at'' "np_dtype" = Assoc.get? at' "np_dtype")
    (h : Head env H fn o at' od subs) : Head env H fn o at'' od subs := by
  cases h with
  | intBig a b d => exact .intBig a b d
  | int a b => exact .int a b
  | bool a => exact .bool a
  | float a => exact .float a
  | cplx a => exact .cplx a
  | none => exact .none
  | str a b d => exact .str a b (h1 ▸ d)
  | bytes a d => exact .bytes a (h1 ▸ d)
  | seqNil a => exact .seqNil a
  | setNil a => exact .setNil a
  | seqVec a b d e => exact .seqVec a b d e
  | setVec a b d e => exact .setVec a b d e
  | seqItems a b e d => exact .seqItems a b e (h2 ▸ d)
  | setItems a b e => exact .setItems a b e
  | dict a => exact .dict a
  | np a b => exact .np a (h3 ▸ b)
  | arr a b => exact .arr a (h3 ▸ b)
  | sstr a b d => exact .sstr a b (h3 ▸ d)
  | rowsNil a b => exact .rowsNil a (h3 ▸ b)
  | rows a b d e f => exact .rows a b d (h3 ▸ e) (h2 ▸ f)
  | oseq a b d => exact .oseq a (h3 ▸ b) (d.attrs h2)
  | oone a b d e f => exact .oone a b d (h3 ▸ e) (h2 ▸ f)
  | masked a b => exact .masked a (h3 ▸ b)
  | sparse a b => exact .sparse a b
  | pickled a => exact .pickled a

theorem Head.leaf {env : Env} {H : Heap} {fn o at' d subs} (h : Head env H fn o at' (some d) subs) : subs = [] := by
  cases h with
  | oseq _ _ h => cases h <;> rfl
  | _ => rfl

theorem NodeOk.mono {env : Env} {base : Nat} {H H' : Heap} {S S' : Store} {W W' : Rel} {n a} (hp : H <+: H') (hx : SExt S S')
    (hn : ∀ nd, S[n]? = some nd → S'[n]? = some nd) (hW : ∀ n a, W n a → W' n a) (h : NodeOk env base H S W n a) :
    NodeOk env base H' S' W' n a := by
  obtain ⟨o, nd, od, subs, h1, h2, h3, h4, h5⟩ := h
  refine ⟨o, nd, od, subs, getElem?_prefix hp h1, hn _ h2, h3.ext hx, ?_, ?_⟩
  · cases od with
    | some d => obtain rfl := h4.leaf; exact h4.mono hp (by simp)
    | none => obtain ⟨ls, _, hk⟩ := h5; exact h4.mono hp hk.ok
  · cases od with
    | some d => exact h5
    | none => obtain ⟨ls, hb, hk⟩ := h5; exact ⟨ls, hb, hk.mono hp hx hW⟩

/-! ### setting attributes -/

/-- attributes a container gives its items -/
def AttrsOk (attrs : Attrs) : Prop :=
  (attrs.map Prod.fst).Nodup ∧ ∀ p ∈ attrs, p.1 = "item_index" ∨ p.1 = "key_idx" ∨ p.1 = "key_base_type"

theorem EntryOk.setAttr {env : Env} {S : Store} {cls e n k v} (hk : k ≠ "base_type") (h : EntryOk env S cls e) :
    EntryOk env (S.setAttr n k v) cls e := by
  obtain ⟨nd, b, bn, h1, h2, h3, h4, h5⟩ := h
  have hb : ∃ bn', (S.setAttr n k v)[b]? = some bn' ∧ bn'.name = bn.name := by
    by_cases hbn : b = n
    · subst hbn; exact ⟨_, Store.getElem?_setAttr_self h4 k v, rfl⟩
    · exact ⟨bn, by rw [Store.getElem?_setAttr_ne hbn]; exact h4, rfl⟩
  obtain ⟨bn', hb1, hb2⟩ := hb
  by_cases hen : e = n
  · subst hen
    exact ⟨_, b, bn', Store.getElem?_setAttr_self h1 k v, h2, by simp only []; rw [Assoc.get?_put_ne _ _ hk]; exact h3, hb1,
      hb2.trans h5⟩
  · exact ⟨nd, b, bn', by rw [Store.getElem?_setAttr_ne hen]; exact h1, h2, h3, hb1, hb2.trans h5⟩

theorem TInv.setAttr {c : DCtx} {s : DState} {n k v} (hk : k ≠ "base_type") (h : TInv c s) :
    TInv c { s with store := s.store.setAttr n k v } where
  tab := by
    obtain ⟨ls, hl⟩ := h.tab
    obtain ⟨nd, h1, h2⟩ := Store.links_eq hl
    by_cases ht : c.table = n
    · subst ht; exact ⟨ls, Store.links_of (Store.getElem?_setAttr_self h1 k v) h2⟩
    · exact ⟨ls, Store.links_of (by simp only []; rw [Store.getElem?_setAttr_ne ht]; exact h1) h2⟩
  tl cls e he := (h.tl cls e he).setAttr hk
  bl b m hm := by
    obtain ⟨nd, h1, h2⟩ := h.bl b m hm
    by_cases ht : m = n
    · subst ht; exact ⟨_, Store.getElem?_setAttr_self h1 k v, h2⟩
    · exact ⟨nd, by simp only []; rw [Store.getElem?_setAttr_ne ht]; exact h1, h2⟩
  ents ls hls p hp := by
    simp only [Store.links_setAttr] at hls
    obtain ⟨nd, h1, h2⟩ := h.ents ls hls p hp
    obtain ⟨nd', e1, e2, _⟩ := Store.body_setAttr h1 k v
    exact ⟨nd', e1, by rw [e2]; exact h2⟩

/-- effect of `h_node.attrs.update(attrs)` -/
theorem setAttrs_ok {c : DCtx} {n : NodeId} {attrs : Attrs} {s s' : DState} {x} (ha : AttrsOk attrs)
    {nd : Node} (hn : s.store[n]? = some nd) (h : setAttrs n attrs s = (.ok x, s')) :
    (∃ at', s'.store[n]? = some { nd with attrs := at' } ∧ (∀ p ∈ attrs, Assoc.get? at' p.1 = some p.2) ∧
      (∀ k, (∀ p ∈ attrs, p.1 ≠ k) → Assoc.get? at' k = Assoc.get? nd.attrs k)) ∧
    (∀ m, m ≠ n → s'.store[m]? = s.store[m]?) ∧ s' = { s with store := s'.store } ∧ (TInv c s → TInv c s') := by
  induction attrs generalizing s nd with
  | nil =>
    simp [setAttrs, M.forEach] at h; subst h
    exact ⟨⟨nd.attrs, hn, by simp, by simp⟩, fun _ _ => rfl, rfl, id⟩
  | cons p attrs ih =>
    unfold setAttrs at h
    simp only [M.forEach, M.bind_ok_iff] at h
    obtain ⟨y, s1, h1, h2⟩ := h
    have h3 := setAttr_ok h1
    have hn1 : s1.store[n]? = some { nd with attrs := Assoc.put nd.attrs p.1 p.2 } := by
      rw [h3]; exact Store.getElem?_setAttr_self hn _ _
    obtain ⟨hd, hk⟩ := ha
    simp only [List.map_cons, List.nodup_cons] at hd
    obtain ⟨⟨at', e1, e2, e3⟩, e4, e5, e6⟩ := ih ⟨hd.2, fun q hq => hk q (by simp [hq])⟩ hn1 h2
    refine ⟨⟨at', e1, ?_, ?_⟩, ?_, ?_, ?_⟩
    · intro q hq
      rcases List.mem_cons.1 hq with rfl | hq
      · rw [e3 q.1 (fun r hr hc => hd.1 (List.mem_map.2 ⟨r, hr, hc⟩))]; simp
      · exact e2 q hq
    · intro k hk'
      rw [e3 k (fun r hr => hk' r (by simp [hr]))]
      exact Assoc.get?_put_ne _ _ (hk' p (by simp))
    · intro m hm; rw [e4 m hm, h3]; exact Store.getElem?_setAttr_ne hm _ _
    · rw [e5, h3]
    · intro hT
      apply e6
      rw [h3]
      refine hT.setAttr ?_
      rcases hk p (by simp) with h | h | h <;> rw [h] <;> decide

/-! ### creating the node of an object -/

/-- everything but group `g` and the types table stays as it was -/
structure Frame (T g : NodeId) (s s' : DState) : Prop where
  heap : s.heap <+: s'.heap
  ext : SExt s.store s'.store
  same : ∀ n nd, n ≠ g → n ≠ T → s.store[n]? = some nd → s'.store[n]? = some nd

theorem Frame.refl (T g : NodeId) (s : DState) : Frame T g s s := ⟨List.prefix_rfl, SExt.refl _, fun _ _ _ _ h => h⟩

theorem Frame.trans {T g : NodeId} {a b c : DState} (h1 : Frame T g a b) (h2 : Frame T g b c) : Frame T g a c :=
  ⟨h1.heap.trans h2.heap, h1.ext.trans h2.ext, fun n nd h3 h4 h5 => h2.same n nd h3 h4 (h1.same n nd h3 h4 h5)⟩

/-- work below a new node does not show outside of it -/
theorem Frame.below {T g n : NodeId} {a b c : DState} (h1 : Frame T g a b) (hn : a.store.length ≤ n)
    (h2 : Frame T n b c) : Frame T g a c :=
  ⟨h1.heap.trans h2.heap, h1.ext.trans h2.ext, fun m nd h3 h4 h5 =>
    h2.same m nd (by have := lt_of_getElem? h5; omega) h4 (h1.same m nd h3 h4 h5)⟩

theorem TInv.table_lt {c : DCtx} {s : DState} (h : TInv c s) : c.table < s.store.length := by
  obtain ⟨ls, hl⟩ := h.tab
  obtain ⟨nd, h1, _⟩ := Store.links_eq hl
  exact lt_of_getElem? h1

theorem storeType_ok {c : DCtx} {cls : Cls} {n : NodeId} {s s1 : DState} {x} {nd : Node} (hT : TInv c s)
    (hn : s.store[n]? = some nd) (hnT : n ≠ c.table) (ht : Assoc.get? nd.attrs "type" = none)
    {base : String}
    (hb : cls ≠ .object → base = (expected c.env cls).2.base)
    (h : storeType c n cls base s = (.ok x, s1)) :
    TInv c s1 ∧ (∃ at', s1.store[n]? = some { nd with attrs := at' } ∧
      (∀ k, k ≠ "type" → Assoc.get? at' k = Assoc.get? nd.attrs k) ∧
      ((cls = .object ∧ Assoc.get? at' "type" = none) ∨
       (cls ≠ .object ∧ ∃ e, Assoc.get? at' "type" = some (.ref e) ∧ EntryOk c.env s1.store cls e))) ∧
    (∀ m nd, m ≠ c.table → m ≠ n → s.store[m]? = some nd → s1.store[m]? = some nd) ∧
    (∀ m nd, m ≠ n → s.store[m]? = some nd → ∃ nd', s1.store[m]? = some nd' ∧ NodeLe nd nd') ∧
    s1.heap = s.heap ∧ s1.memo = s.memo ∧ s1.reg = s.reg := by
  unfold storeType at h
  split at h
  · next hc =>
    simp at h; subst h
    exact ⟨hT, ⟨nd.attrs, hn, fun _ _ => rfl, .inl ⟨hc, ht⟩⟩, fun _ _ _ _ h => h,
      fun m nd _ h => ⟨nd, h, NodeLe.refl _⟩, rfl, rfl, rfl⟩
  · next hc =>
    rw [M.bind_ok_iff] at h
    obtain ⟨e, s2, h1, h2⟩ := h
    rw [hb hc] at h1
    obtain ⟨e1, e2, e3, e4, e5, e6, e7⟩ := typeEntryNode_ok hT h1
    have h3 := setAttr_ok h2
    have hn2 : s2.store[n]? = some nd := e4 _ _ hnT hn
    subst h3
    refine ⟨e1.setAttr (by decide), ⟨_, Store.getElem?_setAttr_self hn2 _ _, ?_, ?_⟩, ?_, ?_, e5, e6, e7⟩
    · intro k hk; exact Assoc.get?_put_ne _ _ (Ne.symm hk)
    · exact .inr ⟨hc, e, Assoc.get?_put_self _ _ _, e2.setAttr (by decide)⟩
    · intro m md h3 h4 h5
      simp only []; rw [Store.getElem?_setAttr_ne h4]; exact e4 _ _ h3 h5
    · intro m md h4 h5
      obtain ⟨md', g1, g2⟩ := e3 _ _ h5
      exact ⟨md', by simp only []; rw [Store.getElem?_setAttr_ne h4]; exact g1, g2⟩

theorem expected_cls (env : Env) (c : Cls) (h : (expected env c).1 ≠ .object) : (expected env c).1 = c := by
  unfold expected at h ⊢
  split <;> simp_all

variable {P : Nat → Prop}

/-- what the first half of `_dump` did when it succeeded -/
theorem dumpCreate_ok {c : DCtx} (hE : EnvOk P c.env) (hm : c.mgr.Ok) {o : Obj} (hc : GoodCls P c.env o.cls)
    {s s1 : DState} (hreg : RegInv P s.reg) (hT : TInv c s) {g : NodeId} (hg : g ≠ c.table) {name : PyStr} {n subs mem}
    (h : dumpCreate c o g name s = (.ok (n, subs, mem), s1)) :
    (utf8Encode name).isSome = true ∧ n = s.store.length ∧ mem = (expected c.env o.cls).2.memoise ∧ s1.heap = s.heap ∧ s1.memo = s.memo ∧
    RegInv P s1.reg ∧ TInv c s1 ∧ Frame c.table g s s1 ∧
    (∃ ls, s.store.links g = some ls ∧ s1.store.links g = some (ls ++ [(name, n)])) ∧
    ∃ nd od, s1.store[n]? = some nd ∧ nd.body = bodyOf od ∧ (TypeOk c.env s1.store o.cls nd.attrs ∧ Assoc.get? nd.attrs "base_type" = none) ∧
      Head c.env s.heap (expected c.env o.cls).2.fn o nd.attrs od subs := by
  obtain ⟨r', hl, hr', _, _⟩ := loadLoader_spec (m := c.mgr) hE hm.dumps hc none hreg
  unfold dumpCreate at h
  have hon : onReg (loadLoader c.env c.mgr o.cls none) s = (.ok (expected c.env o.cls), { s with reg := r' }) := by
    unfold onReg; rw [hl]
  rw [M.bind_of_ok hon, show expected c.env o.cls = ((expected c.env o.cls).1, (expected c.env o.cls).2) from rfl] at h
  dsimp only at h
  rw [M.bind_of_ok (M.get_apply _), M.bind_of_ok (M.attempt_apply _ _)] at h
  simp only at h
  rcases hcf : createFn c (expected c.env o.cls).2.fn s.heap o g name { s with reg := r' } with ⟨r, s2⟩
  rw [hcf] at h
  cases r with
  | error e =>
    simp only at h
    split at h
    · next he => exact absurd (he ▸ hcf) (createFn_noNH (expected_fn c.env o.cls).1 _ _)
    · simp at h
  | ok r =>
    obtain ⟨n', subs'⟩ := r
    simp only [M.bind_ok_iff] at h
    obtain ⟨x, s3, h1, h2⟩ := h
    simp only [M.pure_apply, Prod.mk.injEq, Except.ok.injEq] at h2
    obtain ⟨⟨rfl, rfl, rfl⟩, rfl⟩ := h2
    obtain ⟨at', od, hcr, hat, hd⟩ := createFn_ok hcf
    obtain ⟨pnd, ls, f1, f2, f3, f4, f5, f6, f7, f8⟩ := hcr.facts
    have hs2 : s2 = { s with reg := r', store := s2.store } := by obtain ⟨_, _, e, _⟩ := hcr; exact e
    have hnT : n' ≠ c.table := by have := hT.table_lt; simp only at f3; omega
    have hT2 : TInv c s2 := hT.ext f7 (by rw [hs2]) (by rw [hs2]) (Store.links_congr (f6 _ (Ne.symm hg) (Ne.symm hnT)))
    obtain ⟨g1, ⟨at2, g2, g3, g4⟩, g5, g6, g7, g8, g9⟩ := storeType_ok hT2 f5 hnT hat.1
      (fun hne => by rw [expected_cls _ _ hne]) h1
    have hlt : ∀ m md, s.store[m]? = some md → m ≠ n' := by
      intro m md hmd; have := lt_of_getElem? hmd; simp only at f3; omega
    refine ⟨hcr.name, f3, rfl, ?_, ?_, ?_, g1, ⟨?_, ?_, ?_⟩, ⟨ls, Store.links_of f1 f2, ?_⟩, _, od, g2, rfl, ?_, ?_⟩
    · rw [g7, hs2]
    · rw [g8, hs2]
    · rw [g9, hs2]; exact hr'
    · rw [g7, hs2]; exact List.prefix_rfl
    · intro m md hmd
      obtain ⟨md', a1, a2⟩ := f7 m md hmd
      obtain ⟨md2, b1, b2⟩ := g6 m md' (hlt m md hmd) a1
      exact ⟨md2, b1, a2.trans b2⟩
    · intro m md h3 h4 h5
      refine g5 m md h4 (hlt m md h5) ?_
      rw [f6 m h3 (hlt m md h5)]; exact h5
    · exact Store.links_of (g5 g _ hg (Ne.symm f8) f4) rfl
    · refine ⟨?_, (g3 _ (by decide)).trans hat.2⟩
      rcases g4 with ⟨q1, q2⟩ | ⟨q1, e, q2, q3⟩
      · exact .inl ⟨q1, q2⟩
      · refine .inr ⟨q1, e, q2, ?_⟩
        rw [expected_cls _ _ q1] at q3; exact q3
    · exact hd.attrs (g3 _ (by decide)) (g3 _ (by decide)) (g3 _ (by decide))

/-! ### the invariant of a dump -/

/-- pairs of two lists -/
def W2 (D O : List (NodeId × Addr)) : Rel := fun n a => (n, a) ∈ D ∨ (n, a) ∈ O

/-- Invariant of a running dump.  `D`: nodes that are complete, `O`: nodes still being filled.
`base` is the size of the heap before the dump: objects behind it were made for the dump. -/
structure DInv (P : Nat → Prop) (c : DCtx) (base : Nat) (D O : List (NodeId × Addr)) (s : DState) : Prop where
  reg : RegInv P s.reg
  tinv : TInv c s
  done : ∀ n a, (n, a) ∈ D → NodeOk c.env base s.heap s.store (W2 D O) n a
  memo : ∀ a n, Assoc.get? s.memo a = some n → W2 D O n a
  memoised : ∀ n a o, W2 D O n a → s.heap[a]? = some o → (expected c.env o.cls).2.memoise = true →
    Assoc.get? s.memo a = some n
  uniq : ∀ n a a', W2 D O n a → W2 D O n a' → a = a'
  lt : ∀ n a, W2 D O n a → n < s.store.length ∧ a < s.heap.length ∧ n ≠ c.table
  cls : ∀ (a : Addr) (o : Obj), s.heap[a]? = some o → GoodCls P c.env o.cls
  len : base ≤ s.heap.length
  temps : ∀ (p : Addr) (o : Obj), base ≤ p → s.heap[p]? = some o → TempOk s.heap base p o

theorem goodCls_tuple (P : Nat → Prop) (env : Env) : GoodCls P env .tuple := by
  intro k hk
  simp [Cls.mro] at hk
  rcases hk with rfl | rfl <;> exact ⟨trivial, .inl ⟨"builtins", rfl⟩⟩

/-- complete nodes stay complete -/
theorem DInv.done_mono {c : DCtx} {base : Nat} {D O : List (NodeId × Addr)} {s s' : DState} (h : DInv P c base D O s) {g : NodeId}
    (hg : ∀ a, (g, a) ∉ D) (hf : Frame c.table g s s') {W' : Rel} (hW : ∀ n a, W2 D O n a → W' n a) :
    ∀ n a, (n, a) ∈ D → NodeOk c.env base s'.heap s'.store W' n a := by
  intro n a hn
  refine (h.done n a hn).mono hf.heap hf.ext ?_ hW
  intro nd hnd
  refine hf.same n nd ?_ (h.lt n a (.inl hn)).2.2 hnd
  rintro rfl; exact hg a hn

/-- sub items as the create functions make them -/
structure SubsOk (base : Nat) (H : Heap) (subs : Subs) : Prop where
  attrs : ∀ sb, Except.ok sb ∈ subs → AttrsOk sb.attrs
  pairs : ∀ sb k v, Except.ok sb ∈ subs → sb.obj = .pair k v →
    ∃ (a : Addr) (cl : Cls) (es : List (Addr × Addr)), H[a]? = some ⟨cl, .dict es⟩ ∧ (k, v) ∈ es
  nests : ∀ sb c sh ls, Except.ok sb ∈ subs → sb.obj = .nest c sh ls → ∃ (a : Addr) (ow : Obj), H[a]? = some ow ∧ NestOf ow.val c sh ls

theorem SubsOk.tail {base H x subs} (h : SubsOk base H (x :: subs)) : SubsOk base H subs :=
  ⟨fun sb hs => h.attrs sb (by simp [hs]), fun sb k v hs => h.pairs sb k v (by simp [hs]),
    fun sb c sh ls hs => h.nests sb c sh ls (by simp [hs])⟩

theorem SubsOk.mono {base H H' subs} (hp : H <+: H') (h : SubsOk base H subs) : SubsOk base H' subs :=
  ⟨h.attrs, fun sb k v hs hb => by
    obtain ⟨a, cl, es, h1, h2⟩ := h.pairs sb k v hs hb
    exact ⟨a, cl, es, getElem?_prefix hp h1, h2⟩, fun sb c sh ls hs hb => by
    obtain ⟨a, ow, h1, h2⟩ := h.nests sb c sh ls hs hb
    exact ⟨a, ow, getElem?_prefix hp h1, h2⟩⟩

theorem listSubs_mem {i : Nat} {items : List Addr} {sb : Sub} (h : Except.ok sb ∈ listSubs i items) :
    ∃ j a, sb = ⟨dataName j, .addr a, [("item_index", .int j)]⟩ := by
  induction items generalizing i with
  | nil => simp [listSubs] at h
  | cons a as ih =>
    simp only [listSubs, List.mem_cons, Except.ok.injEq] at h
    rcases h with h | h
    · exact ⟨i, a, h⟩
    · exact ih h

theorem dictSubs_mem {env : Env} {H : Heap} {i : Nat} {es : List (Addr × Addr)} {sb : Sub}
    (h : Except.ok sb ∈ dictSubs env H i es) :
    ∃ j k v, (k, v) ∈ es ∧ dictSub env H j k v = .ok sb := by
  induction es generalizing i with
  | nil => simp [dictSubs] at h
  | cons p es ih =>
    obtain ⟨k, v⟩ := p
    simp only [dictSubs, List.mem_cons] at h
    rcases h with h | h
    · exact ⟨i, k, v, by simp, h.symm⟩
    · obtain ⟨j, k', v', h1, h2⟩ := ih h
      exact ⟨j, k', v', by simp [h1], h2⟩

theorem dictSub_attrs {env : Env} {H : Heap} {j : Nat} {k v : Addr} {sb : Sub} (h : dictSub env H j k v = .ok sb) :
    AttrsOk sb.attrs ∧ (∀ k' v', sb.obj = .pair k' v' → k' = k ∧ v' = v) ∧ ∀ c sh ls, sb.obj ≠ .nest c sh ls := by
  unfold dictSub at h
  repeat' split at h
  all_goals first | (simp at h; done) | skip
  all_goals
    simp only [Except.ok.injEq] at h
    subst h
    refine ⟨⟨by simp, by simp⟩, ?_, by simp⟩
    intro k' v' hp
    simp at hp
  exact ⟨hp.1.symm, hp.2.symm⟩

theorem Head.subsOk {env : Env} {base : Nat} {H : Heap} {fn o at' od subs} {a : Addr} (ha : H[a]? = some o)
    (h : Head env H fn o at' od subs) : SubsOk base H subs := by
  have hl : ∀ items, SubsOk base H (listSubs 0 items) := by
    intro items
    constructor
    · intro sb hs
      obtain ⟨j, x, rfl⟩ := listSubs_mem hs
      exact ⟨by simp, by simp⟩
    · intro sb k v hs hp
      obtain ⟨j, x, rfl⟩ := listSubs_mem hs
      simp at hp
    · intro sb c sh ls hs hp
      obtain ⟨j, x, rfl⟩ := listSubs_mem hs
      simp at hp
  have hnil : SubsOk base H [] := ⟨by simp, by simp, by simp⟩
  cases h with
  | seqItems => exact hl _
  | setItems => exact hl _
  | @dict _ _ es h1 =>
    constructor
    · intro sb hs
      obtain ⟨j, k, v, _, h3⟩ := dictSubs_mem hs
      exact (dictSub_attrs h3).1
    · intro sb k v hs hp
      obtain ⟨j, k', v', h2, h3⟩ := dictSubs_mem hs
      obtain ⟨rfl, rfl⟩ := (dictSub_attrs h3).2.1 _ _ hp
      refine ⟨a, o.cls, es, ?_, h2⟩
      rw [ha, ← h1]
    · intro sb c sh ls hs hp
      obtain ⟨j, k', v', h2, h3⟩ := dictSubs_mem hs
      exact absurd hp ((dictSub_attrs h3).2.2 _ _ _)
  | rows h1 h2 h3 h4 h5 =>
    constructor
    · intro sb hs
      obtain ⟨j, _, rfl⟩ := nestSubs_mem hs
      exact ⟨by simp, by simp⟩
    · intro sb k v hs hp
      obtain ⟨j, _, rfl⟩ := nestSubs_mem hs
      simp at hp
    · intro sb c sh ls hs hp
      obtain ⟨j, hj, rfl⟩ := nestSubs_mem hs
      simp only [SubObj.nest.injEq] at hp
      obtain ⟨rfl, rfl, rfl⟩ := hp
      exact ⟨a, o, ha, h1.nest h3 hj⟩
  | oseq _ _ h3 => cases h3 with
    | items => exact hl _
    | _ => exact hnil
  | oone => exact ⟨by simp [AttrsOk], (by intro sb k v hs hp; simp at hs; subst hs; simp at hp), (by intro sb c sh ls hs hp; simp at hs; subst hs; simp at hp)⟩
  | masked h1 h2 =>
    refine ⟨by simp [AttrsOk], (by intro sb k v hs hp; simp at hs; rcases hs with rfl | rfl | rfl | rfl <;> simp at hp), ?_⟩
    intro sb c sh ls hs hp
    refine ⟨a, o, ha, ?_⟩
    rw [h1]
    simp only [List.mem_cons, Except.ok.injEq, List.not_mem_nil, or_false] at hs
    rcases hs with rfl | rfl <;> (simp only [SubObj.nest.injEq] at hp; obtain ⟨rfl, rfl, rfl⟩ := hp)
    · exact nest_obj (by simp) .data
    · refine nest_obj (by simp) ?_
      unfold maskObj
      split
      · exact .nomask
      · exact .data
  | @sparse _ _ d i p shape h1 h2 =>
    refine ⟨by simp [AttrsOk], (by intro sb k v hs hp; simp at hs; rcases hs with rfl | rfl | rfl | rfl <;> simp at hp), ?_⟩
    intro sb c sh ls hs hp
    refine ⟨a, o, ha, ?_⟩
    rw [h1]
    simp only [List.mem_cons, Except.ok.injEq, List.not_mem_nil, or_false] at hs
    rcases hs with rfl | rfl | rfl | rfl <;> simp only [SubObj.nest.injEq, reduceCtorEq] at hp
    obtain ⟨rfl, rfl, rfl⟩ := hp
    rw [show (shape.map fun (n : Nat) => Leaf.obj ⟨.int, .int n⟩) = (shape.map fun (n : Nat) => (⟨.int, .int n⟩ : Obj)).map Leaf.obj by simp]
    refine ⟨.objs (by simp) ?_ (by simp [shSize]), .inr ⟨rfl, by simp [h2], by simp⟩⟩
    intro o ho
    simp at ho
    obtain ⟨n, hn, rfl⟩ := ho
    exact .dim hn
  | _ => exact hnil

/-- the invariant only looks at the pairs as a set -/
theorem DInv.congr {c : DCtx} {base : Nat} {D O D' O' : List (NodeId × Addr)} {s : DState} (h : DInv P c base D O s)
    (hW : ∀ n a, W2 D O n a ↔ W2 D' O' n a)
    (hd : ∀ n a, (n, a) ∈ D' → NodeOk c.env base s.heap s.store (W2 D' O') n a) : DInv P c base D' O' s where
  reg := h.reg
  tinv := h.tinv
  done := hd
  memo a n hn := (hW _ _).1 (h.memo a n hn)
  memoised n a o hn := h.memoised n a o ((hW _ _).2 hn)
  uniq n a a' h1 h2 := h.uniq n a a' ((hW _ _).2 h1) ((hW _ _).2 h2)
  lt n a hn := h.lt n a ((hW _ _).2 hn)
  cls := h.cls
  len := h.len
  temps := h.temps

/-- objects are made for the dump of an item -/
theorem DInv.alloc {c : DCtx} {base : Nat} {D O : List (NodeId × Addr)} {s : DState} (h : DInv P c base D O s) {blk : List Obj}
    (hc : ∀ o ∈ blk, GoodCls P c.env o.cls)
    (hp : ∀ (i : Nat) (o : Obj), blk[i]? = some o → TempOk (s.heap ++ blk) base (s.heap.length + i) o) :
    DInv P c base D O { s with heap := s.heap ++ blk } where
  reg := h.reg
  tinv := h.tinv.ext (SExt.refl _) rfl rfl rfl
  done n a hn := (h.done n a hn).mono (List.prefix_append _ _) (SExt.refl _) (fun _ h => h) (fun _ _ h => h)
  memo := h.memo
  memoised n a o hn ha hm := by
    have hl := (h.lt n a hn).2.1
    simp only at ha
    rw [List.getElem?_append_left hl] at ha
    exact h.memoised n a o hn ha hm
  uniq := h.uniq
  lt n a hn := by
    obtain ⟨h1, h2, h3⟩ := h.lt n a hn
    exact ⟨h1, by simp only [List.length_append]; omega, h3⟩
  cls a o ha := by
    simp only at ha
    rcases Nat.lt_or_ge a s.heap.length with hl | hl
    · rw [List.getElem?_append_left hl] at ha; exact h.cls a o ha
    · rw [List.getElem?_append_right hl] at ha
      exact hc o (List.mem_of_getElem? ha)
  len := by simp only [List.length_append]; have := h.len; omega
  temps p o hb hpo := by
    simp only at hpo ⊢
    rcases Nat.lt_or_ge p s.heap.length with hl | hl
    · rw [List.getElem?_append_left hl] at hpo
      exact (h.temps p o hb hpo).mono (List.prefix_append _ _)
    · rw [List.getElem?_append_right hl] at hpo
      have := hp _ o hpo
      rwa [show s.heap.length + (p - s.heap.length) = p by omega] at this

/-- classes of the objects made for a dump -/
theorem goodCls_temp (P : Nat → Prop) (env : Env) {cl : Cls}
    (h : cl = .list ∨ cl = .tuple ∨ cl = .str ∨ cl = .ndarray ∨ cl = .npBool ∨ cl = .int) : GoodCls P env cl := by
  intro k hk
  rcases h with rfl | rfl | rfl | rfl | rfl | rfl <;> simp [Cls.mro] at hk
  all_goals rcases hk with rfl | rfl | rfl | rfl | rfl <;> exact ⟨trivial, .inl ⟨_, rfl⟩⟩

/-- making the object of a sub item keeps the invariant -/
theorem DInv.sub {c : DCtx} {base : Nat} {D O : List (NodeId × Addr)} {s s0 : DState} (hD : DInv P c base D O s) {sb : Sub} {subs : Subs}
    (hs : SubsOk base s.heap (.ok sb :: subs)) {b : Addr} (h3 : subAddr sb.obj s = (.ok b, s0)) :
    DInv P c base D O s0 ∧ s0.store = s.store ∧ s.heap <+: s0.heap ∧ SubAt base s0.heap sb.obj b := by
  cases ho : sb.obj with
  | addr a => rw [ho] at h3; simp [subAddr] at h3; obtain ⟨rfl, rfl⟩ := h3; exact ⟨hD, rfl, List.prefix_rfl, rfl⟩
  | pair k v =>
    rw [ho] at h3; simp [subAddr, dAlloc] at h3
    obtain ⟨rfl, rfl⟩ := h3
    obtain ⟨a, cl, es, e2, e3⟩ := hs.pairs sb k v (by simp) ho
    refine ⟨hD.alloc (by simpa using goodCls_tuple _ _) ?_, rfl, List.prefix_append _ _, hD.len, by simp⟩
    intro i o hi
    have hi0 : i = 0 := by have := lt_of_getElem? hi; simp at this; omega
    subst hi0
    simp at hi; subst hi
    exact .inl ⟨k, v, rfl, a, cl, es, getElem?_prefix (List.prefix_append _ _) e2, e3⟩
  | nest cl sh ls =>
    rw [ho] at h3; simp only [subAddr, Prod.mk.injEq, Except.ok.injEq] at h3
    obtain ⟨rfl, rfl⟩ := h3
    obtain ⟨a, ow, e1, e2, e3⟩ := hs.nests sb cl sh ls (by simp) ho
    have hb : BlockOk (s.heap ++ (nestBlock cl sh ls s.heap.length).1) base ow.val cl sh ls s.heap.length _ _ :=
      nest_spec sh ls s.heap.length e2 e3 hD.len (by
        intro i o hi
        rw [List.getElem?_append_right (by omega), Nat.add_sub_cancel_left]; exact hi)
    refine ⟨hD.alloc ?_ ?_, rfl, List.prefix_append _ _, hb.nested⟩
    · intro o ho
      obtain ⟨i, hi, e⟩ := List.getElem_of_mem ho
      obtain ⟨o', g1, g2⟩ := (hb.all i hi).cls
      rw [List.getElem?_append_right (by omega), Nat.add_sub_cancel_left, List.getElem?_eq_getElem hi, e] at g1
      simp at g1; subst g1
      exact goodCls_temp _ _ g2
    · intro i o hi
      exact .inr ⟨a, ow, getElem?_prefix (List.prefix_append _ _) e1, hb.all i (lt_of_getElem? hi)⟩

/-- what a successful `_dump(a, g, name, attrs)` did -/
def DumpPost (P : Nat → Prop) (c : DCtx) (base : Nat) (D O : List (NodeId × Addr)) (a : Addr) (g : NodeId) (name : PyStr)
    (attrs : Attrs) (s s' : DState) : Prop :=
  ∃ D' m ls, DInv P c base D' O s' ∧ (∀ p ∈ D, p ∈ D') ∧ (∀ p ∈ D', p ∉ D → s.store.length ≤ p.1) ∧
    Frame c.table g s s' ∧ s.store.links g = some ls ∧ s'.store.links g = some (ls ++ [(name, m)]) ∧
    s.store.length ≤ m ∧ Child s'.store (W2 D' O) m a attrs ∧ (utf8Encode name).isSome = true

theorem subs_loop {c : DCtx} {base : Nat} {fuel : Nat}
    (ih : ∀ a g name attrs s s' D O x, DInv P c base D O s → (∀ b, (g, b) ∉ D) → g ≠ c.table → AttrsOk attrs →
      dumpNode c fuel a g name attrs s = (.ok x, s') → DumpPost P c base D O a g name attrs s s')
    {n : NodeId} (hnT : n ≠ c.table) {O : List (NodeId × Addr)} (subs : Subs) :
    ∀ D s s' x ls, DInv P c base D O s → (∀ b, (n, b) ∉ D) → SubsOk base s.heap subs → s.store.links n = some ls →
      M.forEach (fun sub => match sub with
          | .error e => M.throw e
          | .ok sub => do
            let b ← subAddr sub.obj
            dumpNode c fuel b n sub.name sub.attrs) subs s = (.ok x, s') →
      ∃ D' ls', DInv P c base D' O s' ∧ (∀ p ∈ D, p ∈ D') ∧ (∀ p ∈ D', p ∉ D → s.store.length ≤ p.1) ∧
        Frame c.table n s s' ∧ s'.store.links n = some (ls ++ ls') ∧ Kids base s'.heap s'.store (W2 D' O) ls' subs := by
  induction subs with
  | nil =>
    intro D s s' x ls hD hn hs hl h
    simp [M.forEach] at h; subst h
    exact ⟨D, [], hD, fun _ h => h, fun p h1 h2 => absurd h1 h2, Frame.refl _ _ _, by simpa using hl, .nil⟩
  | cons sub subs ihs =>
    intro D s s' x ls hD hn hs hl h
    simp only [M.forEach, M.bind_ok_iff] at h
    obtain ⟨y, s1, h1, h2⟩ := h
    cases sub with
    | error e => simp at h1
    | ok sb =>
      simp only [M.bind_ok_iff] at h1
      obtain ⟨b, s0, h3, h4⟩ := h1
      obtain ⟨hD0, hst, hpre, hsub⟩ := hD.sub hs h3
      obtain ⟨D1, m, ls1, p1, p2, p3, p4, p5, p6, p7, p8, p9⟩ :=
        ih b n sb.name sb.attrs s0 s1 D O y hD0 hn hnT (hs.attrs sb (by simp)) h4
      rw [hst, hl] at p5
      simp only [Option.some.injEq] at p5
      subst p5
      have hnlt : n < s.store.length := by
        obtain ⟨nd, e, _⟩ := Store.links_eq hl; exact lt_of_getElem? e
      have hn1 : ∀ b, (n, b) ∉ D1 := by
        intro b' hb'
        have := p3 _ hb' (hn b')
        rw [hst] at this
        simp only at this
        omega
      have hf1 : Frame c.table n s s1 := ⟨hpre.trans p4.heap, hst ▸ p4.ext, fun m nd a b d => p4.same m nd a b (hst ▸ d)⟩
      obtain ⟨D2, ls2, q1, q2, q3, q4, q5, q6⟩ := ihs D1 s1 s' x (ls ++ [(sb.name, m)]) p1 hn1
        ((hs.tail).mono hf1.heap) p6 h2
      refine ⟨D2, (sb.name, m) :: ls2, q1, fun p hp => q2 p (p2 p hp), ?_, hf1.trans q4, by simpa using q5, ?_⟩
      · intro p hp hnp
        by_cases h : p ∈ D1
        · have := p3 p h hnp; rw [hst] at this; exact this
        · have := q3 p hp h; have := hf1.ext.length; omega
      · refine .cons p9 (hsub.mono (p4.heap.trans q4.heap)) (p8.mono q4.ext ?_) q6
        intro n a hw
        rcases hw with hw | hw
        · exact .inl (q2 _ hw)
        · exact .inr hw

/-- the state in which `_dump` has created the node of an object and is about to dump the sub items -/
structure Entered (P : Nat → Prop) (c : DCtx) (base : Nat) (D O : List (NodeId × Addr)) (a : Addr) (o : Obj) (g : NodeId) (name : PyStr)
    (attrs : Attrs) (s s3 : DState) (n : NodeId) (subs : Subs) (ls : List (PyStr × NodeId)) (nd : Node) (od : Option Data) : Prop where
  encodes : (utf8Encode name).isSome = true
  new : n = s.store.length
  links : s.store.links g = some ls
  links' : s3.store.links g = some (ls ++ [(name, n)])
  frame : Frame c.table g s s3
  inv : DInv P c base D ((n, a) :: O) s3
  heap : s3.heap = s.heap
  obj : s3.heap[a]? = some o
  node : s3.store[n]? = some nd
  body : nd.body = bodyOf od
  type : TypeOk c.env s3.store o.cls nd.attrs
  head : Head c.env s3.heap (expected c.env o.cls).2.fn o nd.attrs od subs
  hasAttrs : (∀ p ∈ attrs, Assoc.get? nd.attrs p.1 = some p.2) ∧ Assoc.get? nd.attrs "base_type" = none
  neTable : n ≠ c.table
  neParent : g ≠ n
  fresh : ∀ b, (n, b) ∉ D

/-- creating the node of an object keeps the invariant; the node is open -/
theorem dumpEnter_ok {c : DCtx} (hE : EnvOk P c.env) (hm : c.mgr.Ok) {base : Nat} {a : Addr} {o : Obj} {g : NodeId} {name : PyStr} {attrs : Attrs}
    {s s1 s2 s3 : DState} {D O : List (NodeId × Addr)} (hD : DInv P c base D O s) (hg : ∀ b, (g, b) ∉ D) (hgT : g ≠ c.table) (ha : AttrsOk attrs)
    (hmem : Assoc.get? s.memo a = none) (ho : s.heap[a]? = some o) {n : NodeId} {subs : Subs} {mem : Bool} {y z : Unit}
    (h1 : dumpCreate c o g name s = (.ok (n, subs, mem), s1)) (h2 : setAttrs n attrs s1 = (.ok y, s2))
    (h3 : (if mem then M.modify fun s => { s with memo := Assoc.put s.memo a n } else pure () : DM Unit) s2 = (.ok z, s3)) :
    ∃ ls nd od, Entered P c base D O a o g name attrs s s3 n subs ls nd od := by
  obtain ⟨c0, c1, c2, c3, c4, c5, c6, c7, ⟨ls, c8, c9⟩, nd, od, c10, c11, ⟨c12, c12'⟩, c13⟩ :=
    dumpCreate_ok hE hm (hD.cls a o ho) hD.reg hD.tinv hgT h1
  obtain ⟨⟨at', e1, e2, e3⟩, e4, e5, e6⟩ := setAttrs_ok (c := c) ha c10 h2
  have hs2 : s2.heap = s.heap ∧ s2.memo = s.memo ∧ s2.reg = s1.reg := by rw [e5]; simp [c3, c4]
  have hs3 : s3.heap = s2.heap ∧ s3.reg = s2.reg ∧ s3.store = s2.store ∧ s3.tlinks = s2.tlinks ∧ s3.blinks = s2.blinks ∧
      s3.memo = if mem then Assoc.put s.memo a n else s.memo := by
    split at h3
    · next hm' => simp at h3; subst h3; simp [hm', hs2.2.1]
    · next hm' => simp at h3; subst h3; simp [hm', hs2.2.1]
  obtain ⟨t1, t2, t3, t4, t5, t6⟩ := hs3
  have hlt : ∀ m md, s.store[m]? = some md → m ≠ n := by
    intro m md hmd; have := lt_of_getElem? hmd; omega
  have hfresh : ∀ b, ¬ W2 D O n b := by
    intro b hb; have := (hD.lt n b hb).1; omega
  have hgn : g ≠ n := by
    obtain ⟨gd, q, _⟩ := Store.links_eq c8; exact hlt g gd q
  have hnT : n ≠ c.table := by have := hD.tinv.table_lt; omega
  have hf : Frame c.table g s s3 := by
    refine ⟨by rw [t1, hs2.1]; exact List.prefix_rfl, ?_, ?_⟩
    · intro m md hmd
      obtain ⟨md', a1, a2⟩ := c7.ext m md hmd
      exact ⟨md', by rw [t3, e4 m (hlt m md hmd)]; exact a1, a2⟩
    · intro m md h3 h4 h5
      rw [t3, e4 m (hlt m md h5)]; exact c7.same m md h3 h4 h5
  have hat : ∀ k, k ≠ "item_index" → k ≠ "key_idx" → k ≠ "key_base_type" → Assoc.get? at' k = Assoc.get? nd.attrs k := by
    intro k k1 k2 k3
    apply e3
    intro p hp hk
    rcases ha.2 p hp with h | h | h
    · exact k1 (hk ▸ h)
    · exact k2 (hk ▸ h)
    · exact k3 (hk ▸ h)
  have hhead : Head c.env s3.heap (expected c.env o.cls).2.fn o at' od subs := by
    rw [t1, hs2.1]
    exact c13.attrs (hat _ (by decide) (by decide) (by decide)) (hat _ (by decide) (by decide) (by decide))
      (hat _ (by decide) (by decide) (by decide))
  have hT3 : TInv c s3 := (e6 c6).ext (t3 ▸ SExt.refl _) t4 t5 (by rw [t3])
  have htype : TypeOk c.env s3.store o.cls at' := by
    have htt := hat "type" (by decide) (by decide) (by decide)
    rcases c12 with ⟨q1, q2⟩ | ⟨q1, e, q2, q3⟩
    · exact .inl ⟨q1, htt.trans q2⟩
    · refine .inr ⟨q1, e, htt.trans q2, ?_⟩
      obtain ⟨end', b, bn, w1, w2, w3, w4, w5⟩ := q3
      have hw : ∀ (m : NodeId) (md : Node), s1.store[m]? = some md → ∃ md' : Node, s3.store[m]? = some md' ∧ md'.name = md.name ∧ md'.body = md.body ∧
          Assoc.get? md'.attrs "base_type" = Assoc.get? md.attrs "base_type" := by
        intro m md hmd
        by_cases hmn : m = n
        · subst hmn
          rw [c10] at hmd; simp at hmd; subst hmd
          exact ⟨{ nd with attrs := at' }, by rw [t3]; exact e1, rfl, rfl, hat _ (by decide) (by decide) (by decide)⟩
        · exact ⟨md, by rw [t3, e4 m hmn]; exact hmd, rfl, rfl, rfl⟩
      obtain ⟨end2, v1, v2, v3, v4⟩ := hw _ _ w1
      obtain ⟨bn2, u1, u2, u3, u4⟩ := hw _ _ w4
      exact ⟨end2, b, bn2, v1, v3.trans w2, v4.trans w3, u1, u2.trans w5⟩
  have hn3 : s3.store[n]? = some { nd with attrs := at' } := by rw [t3]; exact e1
  have halt := lt_of_getElem? ho
  have hD3 : DInv P c base D ((n, a) :: O) s3 := by
    refine ⟨by rw [t2, hs2.2.2]; exact c5, hT3, hD.done_mono hg hf ?_, ?_, ?_, ?_, ?_, ?_, ?_, ?_⟩
    · intro n a hw
      rcases hw with hw | hw
      · exact .inl hw
      · exact .inr (by simp [hw])
    · intro a' n' hn'
      rw [t6] at hn'
      by_cases hm' : mem = true
      · rw [if_pos hm', Assoc.get?_put] at hn'
        split at hn'
        · next he => simp at hn'; subst hn'; subst he; exact .inr (by simp)
        · rcases hD.memo a' n' hn' with hw | hw
          · exact .inl hw
          · exact .inr (by simp [hw])
      · rw [if_neg hm'] at hn'
        rcases hD.memo a' n' hn' with hw | hw
        · exact .inl hw
        · exact .inr (by simp [hw])
    · intro n' a' o' hw ho' hmo
      rw [t1, hs2.1] at ho'
      rw [t6]
      by_cases haa : a' = a
      · subst haa
        rw [ho] at ho'; simp at ho'; subst ho'
        rw [c2, hmo, if_pos rfl, Assoc.get?_put_self]
        have : W2 D O n' a' ∨ n' = n := by
          rcases hw with hw | hw
          · exact .inl (.inl hw)
          · simp at hw; rcases hw with hw | hw
            · exact .inr hw
            · exact .inl (.inr hw)
        rcases this with hw | hw
        · rw [hD.memoised n' a' o hw ho hmo] at hmem; simp at hmem
        · rw [hw]
      · have : W2 D O n' a' := by
          rcases hw with hw | hw
          · exact .inl hw
          · simp [haa] at hw; exact .inr hw
        have hh := hD.memoised n' a' o' this ho' hmo
        split
        · rw [Assoc.get?_put_ne _ _ (Ne.symm haa)]; exact hh
        · exact hh
    · intro n' x y hx hy
      have key : ∀ x, W2 D ((n, a) :: O) n' x → W2 D O n' x ∨ (n' = n ∧ x = a) := by
        intro x hx
        rcases hx with hx | hx
        · exact .inl (.inl hx)
        · simp at hx; rcases hx with hx | hx
          · exact .inr hx
          · exact .inl (.inr hx)
      rcases key x hx with k1 | ⟨k1, k1'⟩ <;> rcases key y hy with k2 | ⟨k2, k2'⟩
      · exact hD.uniq n' x y k1 k2
      · exact absurd (k2 ▸ k1) (hfresh x)
      · exact absurd (k1 ▸ k2) (hfresh y)
      · rw [k1', k2']
    · intro n' x hx
      have : W2 D O n' x ∨ (n' = n ∧ x = a) := by
        rcases hx with hx | hx
        · exact .inl (.inl hx)
        · simp at hx; rcases hx with hx | hx
          · exact .inr hx
          · exact .inl (.inr hx)
      rcases this with h1 | ⟨rfl, rfl⟩
      · obtain ⟨q1, q2, q3⟩ := hD.lt n' x h1
        exact ⟨Nat.lt_of_lt_of_le q1 hf.ext.length, by rw [t1, hs2.1]; exact q2, q3⟩
      · exact ⟨lt_of_getElem? hn3, by rw [t1, hs2.1]; exact halt, hnT⟩
    · rw [t1, hs2.1]; exact hD.cls
    · rw [t1, hs2.1]; exact hD.len
    · rw [t1, hs2.1]; exact hD.temps
  have ho3 : s3.heap[a]? = some o := by rw [t1, hs2.1]; exact ho
  have hnD : ∀ b, (n, b) ∉ D := fun b hb => hfresh b (.inl hb)
  have hlinks3 : s3.store.links g = some (ls ++ [(name, n)]) := by
    obtain ⟨gd, q1, q2⟩ := Store.links_eq c9
    exact Store.links_of (by rw [t3, e4 g hgn]; exact q1) q2
  exact ⟨ls, _, od, c0, c1, c8, hlinks3, hf, hD3, by rw [t1, hs2.1], ho3, hn3, c11, htype, hhead, ⟨e2, (hat _ (by decide) (by decide) (by decide)).trans c12'⟩, hnT, hgn, hnD⟩

/-- A successful `_dump` leaves complete nodes for everything it met. -/
theorem dumpNode_spec {c : DCtx} (hE : EnvOk P c.env) (hm : c.mgr.Ok) {base : Nat} (fuel : Nat) :
    ∀ a g name attrs s s' D O x, DInv P c base D O s → (∀ b, (g, b) ∉ D) → g ≠ c.table → AttrsOk attrs →
      dumpNode c fuel a g name attrs s = (.ok x, s') → DumpPost P c base D O a g name attrs s s' := by
  induction fuel with
  | zero => intro a g name attrs s s' D O x _ _ _ _ h; simp [dumpNode] at h
  | succ fuel ih =>
    intro a g name attrs s s' D O x hD hg hgT ha h
    unfold dumpNode at h
    rw [M.bind_of_ok (M.get_apply s)] at h
    cases hmem : Assoc.get? s.memo a with
    | some n =>
      simp only [hmem, M.bind_ok_iff] at h
      obtain ⟨l, s1, h1, h2⟩ := h
      obtain ⟨_, hcr⟩ := mkDset_ok h1
      obtain ⟨pnd, ls, f1, f2, f3, f4, f5, f6, f7, f8⟩ := hcr.facts
      have hs1 : s1 = { s with store := s1.store } := by obtain ⟨_, _, e, _⟩ := hcr; exact e
      obtain ⟨⟨at', e1, e2, e3⟩, e4, e5, e6⟩ := setAttrs_ok (c := c) ha f5 h2
      have hs' : s'.heap = s.heap ∧ s'.memo = s.memo ∧ s'.reg = s.reg := by rw [e5, hs1]; simp
      have hlt : ∀ m md, s.store[m]? = some md → m ≠ l := by
        intro m md hmd; have := lt_of_getElem? hmd; omega
      have hf : Frame c.table g s s' := by
        refine ⟨hs'.1 ▸ List.prefix_rfl, ?_, ?_⟩
        · intro m md hmd
          obtain ⟨md', a1, a2⟩ := f7 m md hmd
          exact ⟨md', by rw [e4 m (hlt m md hmd)]; exact a1, a2⟩
        · intro m md h3 h4 h5
          rw [e4 m (hlt m md h5), f6 m h3 (hlt m md h5)]; exact h5
      have hW := hD.memo a n hmem
      refine ⟨D, l, ls, ?_, fun _ h => h, fun p h1 h2 => absurd h1 h2, hf, Store.links_of f1 f2, ?_, by omega, ?_, hcr.name⟩
      · refine ⟨hs'.2.2 ▸ hD.reg, e6 (hD.tinv.ext f7 (by rw [hs1]) (by rw [hs1])
          (Store.links_congr (f6 _ (Ne.symm hgT) (by have := hD.tinv.table_lt; omega)))), hD.done_mono hg hf (fun _ _ h => h),
          ?_, ?_, hD.uniq, ?_, ?_, ?_, ?_⟩
        · rw [hs'.2.1]; exact hD.memo
        · rw [hs'.2.1, hs'.1]; exact hD.memoised
        · intro n a hw
          obtain ⟨q1, q2, q3⟩ := hD.lt n a hw
          exact ⟨Nat.lt_of_lt_of_le q1 hf.ext.length, hs'.1 ▸ q2, q3⟩
        · rw [hs'.1]; exact hD.cls
        · rw [hs'.1]; exact hD.len
        · rw [hs'.1]; exact hD.temps
      · exact Store.links_of (nd := { pnd with body := .group (ls ++ [(name, l)]) }) (by rw [e4 g (Ne.symm f8)]; exact f4) rfl
      · have hat : ∀ k, k = "type" ∨ k = "base_type" → Assoc.get? at' k = none := by
          intro k hk
          rw [e3 k ?_]
          · rcases hk with rfl | rfl <;> rfl
          · intro p hp
            rcases hk with rfl | rfl <;> rcases ha.2 p hp with h | h | h <;> rw [h] <;> decide
        exact ⟨_, e1, ⟨e2, hat _ (.inr rfl)⟩, .inr ⟨n, rfl, hat _ (.inl rfl), hW⟩⟩
    | none =>
      simp only [hmem] at h
      cases ho : s.heap[a]? with
      | none => simp [ho] at h
      | some o =>
        simp only [ho, M.bind_ok_iff] at h
        obtain ⟨⟨n, subs, mem⟩, s1, h1, y, s2, h2, z, s3, h3, h4⟩ := h
        dsimp only at h2 h3 h4
        have hflt : (attrs.filter fun p => decide (p.1 ≠ "type")) = attrs := by
          rw [List.filter_eq_self]
          intro p hp
          rcases ha.2 p hp with h | h | h <;> rw [h] <;> decide
        rw [hflt] at h2
        obtain ⟨ls, nd, od, hen⟩ := dumpEnter_ok hE hm hD hg hgT ha hmem ho h1 h2 h3
        obtain ⟨c0, c1, c8, hlinks3, hf, hD3, _, ho3, hn3, c11, htype, hhead, e2, hnT, hgn, hnD⟩ := hen
        -- the loop over the sub items
        have hloop : ∃ D', DInv P c base D' ((n, a) :: O) s' ∧ (∀ p ∈ D, p ∈ D') ∧ (∀ p ∈ D', p ∉ D → s3.store.length ≤ p.1) ∧
            Frame c.table n s3 s' ∧ NodeOk c.env base s'.heap s'.store (W2 D' ((n, a) :: O)) n a := by
          cases od with
          | some d =>
            obtain rfl := hhead.leaf
            simp [M.forEach] at h4; subst h4
            exact ⟨D, hD3, fun _ h => h, fun p h1 h2 => absurd h1 h2, Frame.refl _ _ _,
              o, _, some d, [], ho3, hn3, htype, hhead, c11⟩
          | none =>
            have hln : s3.store.links n = some [] := Store.links_of hn3 c11
            obtain ⟨D', ls', q1, q2, q3, q4, q5, q6⟩ := subs_loop ih hnT subs D s3 s' x [] hD3 hnD (hhead.subsOk ho3) hln h4
            refine ⟨D', q1, q2, q3, q4, ?_⟩
            obtain ⟨nd', w1, w2⟩ := q4.ext n _ hn3
            obtain ⟨nd2, w3, w4⟩ := Store.links_eq q5
            rw [w1] at w3; simp at w3; subst w3
            refine ⟨o, nd', none, subs, getElem?_prefix q4.heap ho3, w1, ?_, ?_, ls', by simpa using w4, q6⟩
            · rw [w2.attrs]; exact htype.ext q4.ext
            · rw [w2.attrs]; exact hhead.mono q4.heap q6.ok
        obtain ⟨D', q1, q2, q3, q4, q5⟩ := hloop
        have hWW : ∀ n' a', W2 D' ((n, a) :: O) n' a' ↔ W2 ((n, a) :: D') O n' a' := by
          intro n' a'
          simp only [W2, List.mem_cons]
          constructor
          · rintro (h | h | h)
            · exact .inl (.inr h)
            · exact .inl (.inl h)
            · exact .inr h
          · rintro ((h | h) | h)
            · exact .inr (.inl h)
            · exact .inl h
            · exact .inr (.inr h)
        have hlen3 : s.store.length ≤ s3.store.length := hf.ext.length
        refine ⟨(n, a) :: D', n, ls, ?_, fun p hp => by simp [q2 p hp], ?_, hf.below (by omega) q4, c8, ?_, by omega, ?_, c0⟩
        · refine q1.congr hWW ?_
          have hmono : ∀ n' a', NodeOk c.env base s'.heap s'.store (W2 D' ((n, a) :: O)) n' a' →
              NodeOk c.env base s'.heap s'.store (W2 ((n, a) :: D') O) n' a' := fun n' a' h =>
            h.mono List.prefix_rfl (SExt.refl _) (fun _ h => h) (fun n a => (hWW n a).1)
          intro n' a' hn'
          rcases List.mem_cons.1 hn' with hn' | hn'
          · simp at hn'; obtain ⟨rfl, rfl⟩ := hn'; exact hmono _ _ q5
          · exact hmono _ _ (q1.done n' a' hn')
        · intro p hp hnp
          rcases List.mem_cons.1 hp with rfl | hp
          · simp only; omega
          · have := q3 p hp hnp; omega
        · obtain ⟨gd, w1, w2⟩ := Store.links_eq hlinks3
          exact Store.links_of (q4.same g gd hgn hgT w1) w2
        · obtain ⟨nd', w1, w2⟩ := q4.ext n _ hn3
          exact ⟨nd', w1, by rw [w2.attrs]; exact e2, .inl (.inl (by simp))⟩

end Verif
