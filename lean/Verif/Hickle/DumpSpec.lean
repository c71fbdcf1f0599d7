import Verif.Hickle.Dump
import Verif.Hickle.RegSpec
import Verif.H5.StoreLemmas
/-!
# What a successful dump leaves in the file

`NodeOk` describes the node of one object; `dumpNode_spec` says that a successful `_dump` leaves a
file in which every object met is described that way.
-/
namespace Verif

/-- what `create_listlike_dataset` recorded for a sequence -/
inductive SeqHead (H : Heap) (items : List Addr) : Attrs → Option Data → Subs → Prop
  | nil {at'} : items = [] → SeqHead H items at' (some (.null "int")) []
  | vec {at' d vs} : items ≠ [] → items.mapM (castItem H d) = some vs →
      (∃ a ∈ items, ∃ p v, H[a]? = some p ∧ exactNum p = some v ∧ v.dt = d) → SeqHead H items at' (some (.vec d vs)) []
  | items {at'} : items ≠ [] → (∃ c ∈ items, ∃ p, H[c]? = some p ∧ exactNum p = none) →
      Assoc.get? at' "num_items" = some (.int items.length) → SeqHead H items at' none (listSubs 0 items)

/-- the list an array of objects is stored as -/
inductive OList (env : Env) (H : Heap) (o : Obj) : List Addr → Prop
  | one {n items} : o.val = .oarr [n] items → OList env H o items
  | zero {a cl l} : o.val = .oarr [] [a] → H[a]? = some ⟨cl, .seq l⟩ → Cls.list ∈ cl.mro env.u → OList env H o l

/-- the rows an array of strings or objects is stored as, and the dtype -/
inductive RowsOf (o : Obj) : Nat → List Nat → List Leaf → AttrVal → Prop
  | str {w n sh data} : o.val = .sarr w (n :: sh) data → RowsOf o n sh (data.map fun s => .obj ⟨.str, .str s⟩) (.udt w)
  | obj {n m sh items} : o.val = .oarr (n :: m :: sh) items → RowsOf o n (m :: sh) (items.map .addr) .odt

/-- What the create function recorded for object `o`: attributes, dataset (`none`: a group) and
the sub items. -/
inductive Head (env : Env) (H : Heap) : DumpFn → Obj → Attrs → Option Data → Subs → Prop
  | intBig {o at' i} : o.val = .int i → 63 < bitLength i → digitsOk env i = true →
      Head env H .scalar o at' (some (.raw (asciiBytes (showInt i)))) []
  | int {o at' i} : o.val = .int i → bitLength i ≤ 63 → Head env H .scalar o at' (some (.scalar (.i i))) []
  | bool {o at' b} : o.val = .bool b → Head env H .scalar o at' (some (.scalar (.b b))) []
  | float {o at' x} : o.val = .float x → Head env H .scalar o at' (some (.scalar (.f x))) []
  | cplx {o at' x y} : o.val = .cplx x y → Head env H .scalar o at' (some (.scalar (.c x y))) []
  | none {o at'} : Head env H .none o at' (some (.null "V1")) []
  | str {o at' s b} : o.val = .str s → utf8Encode s = some b →
      Assoc.get? at' "str_type" = some (.bytes (o.cls.name env.u)) → Head env H .listlike o at' (some (.chars b)) []
  | bytes {o at' b} : o.val = .bytes b →
      Assoc.get? at' "str_type" = some (.bytes (o.cls.name env.u)) → Head env H .listlike o at' (some (.chars b)) []
  | seqNil {o at'} : o.val = .seq [] → Head env H .listlike o at' (some (.null "int")) []
  | setNil {o at'} : o.val = .set [] → Head env H .setlike o at' (some (.vec .int64 [])) []
  | seqVec {o at' items d vs} : o.val = .seq items → items ≠ [] → items.mapM (castItem H d) = some vs →
      (∃ a ∈ items, ∃ p v, H[a]? = some p ∧ exactNum p = some v ∧ v.dt = d) →
      Head env H .listlike o at' (some (.vec d vs)) []
  | setVec {o at' items d vs} : o.val = .set items → items ≠ [] → items.mapM (castItem H d) = some vs →
      (∃ a ∈ items, ∃ p v, H[a]? = some p ∧ exactNum p = some v ∧ v.dt = d) →
      Head env H .setlike o at' (some (.vec d vs)) []
  | seqItems {o at' items} : o.val = .seq items → items ≠ [] → (∃ c ∈ items, ∃ p, H[c]? = some p ∧ exactNum p = none) →
      Assoc.get? at' "num_items" = some (.int items.length) → Head env H .listlike o at' none (listSubs 0 items)
  | setItems {o at' items} : o.val = .set items → items ≠ [] → (∃ c ∈ items, ∃ p, H[c]? = some p ∧ exactNum p = none) → Head env H .setlike o at' none (listSubs 0 items)
  | dict {o at' es} : o.val = .dict es → Head env H .dictlike o at' none (dictSubs env H 0 es)
  | np {o at' v} : o.val = .np v → Assoc.get? at' "np_dtype" = some (.dt v.dt) →
      Head env H .npScalar o at' (some (.scalar v)) []
  | arr {o at' d shape data} : o.val = .arr d shape data → Assoc.get? at' "np_dtype" = some (.dt d) →
      Head env H .npArray o at' (some (.array d shape data)) []
  | sstr {o at' w s b} : o.val = .sarr w [] [s] → utf8Encode s = some b → Assoc.get? at' "np_dtype" = some (.udt w) →
      Head env H .npArray o at' (some (.chars b)) []
  | rowsNil {o at' sh ls dt} : RowsOf o 0 sh ls dt → Assoc.get? at' "np_dtype" = some dt →
      Head env H .npArray o at' (some (.null "int")) []
  | rows {o at' n sh ls dt} : RowsOf o n sh ls dt → n ≠ 0 → ls.length = n * shSize sh → Assoc.get? at' "np_dtype" = some dt →
      Assoc.get? at' "num_items" = some (.int n) → Head env H .npArray o at' none (nestSubs sh 0 n ls)
  | oseq {o at' od subs l} : OList env H o l → Assoc.get? at' "np_dtype" = some .odt → SeqHead H l at' od subs →
      Head env H .npArray o at' od subs
  | oone {o at' a p} : o.val = .oarr [] [a] → H[a]? = some p → (∀ l, p.val = .seq l → Cls.list ∉ p.cls.mro env.u) →
      Assoc.get? at' "np_dtype" = some .odt → Assoc.get? at' "num_items" = none → Head env H .npArray o at' none [.ok ⟨ps "data", .addr a, []⟩]
  | masked {o at' d shape data mask} : o.val = .masked d shape data mask → Assoc.get? at' "np_dtype" = some (.dt d) →
      Head env H .npMasked o at' none [.ok ⟨ps "data", .nest .list [] [.obj ⟨.ndarray, .arr d shape data⟩], []⟩,
        .ok ⟨ps "mask", .nest .list [] [.obj (maskObj shape mask)], []⟩]
  | sparse {o at' d i p shape} : o.val = .sparse d i p shape → shape.length = 2 →
      Head env H .sparse o at' none [.ok ⟨ps "data", .addr d, []⟩, .ok ⟨ps "indices", .addr i, []⟩, .ok ⟨ps "indptr", .addr p, []⟩,
        .ok ⟨ps "shape", .nest .tuple [shape.length] (shape.map fun (n : Nat) => .obj ⟨.int, .int n⟩), []⟩]
  | pickled {o at' st} : o.val = .opaque st true → Head env H .pickled o at' (some (.pickleObj o.cls st)) []

/-- a node without type information -/
def Untyped (at' : Attrs) : Prop := Assoc.get? at' "type" = none ∧ Assoc.get? at' "base_type" = none

theorem Untyped.put {at' : Attrs} (h : Untyped at') {k : String} {v} (h1 : k ≠ "type") (h2 : k ≠ "base_type") : Untyped (Assoc.put at' k v) :=
  ⟨by rw [Assoc.get?_put_ne _ _ h1]; exact h.1, by rw [Assoc.get?_put_ne _ _ h2]; exact h.2⟩

def bodyOf : Option Data → Body
  | some d => .dset d
  | none => .group []

/-- a node was created and given some attributes; nothing else happened -/
def Created (s : DState) (parent : NodeId) (name : PyStr) (n : NodeId) (body : Body) (at' : Attrs) (s1 : DState) : Prop :=
  ∃ st, s.store.create parent name body = .ok (n, st) ∧ s1 = { s with store := s1.store } ∧
    s1.store[n]? = some ⟨name, at', body⟩ ∧ (∀ m, m ≠ n → s1.store[m]? = st[m]?)

theorem mkDset_ok {kw parent name d s n s1} (h : mkDset kw parent name d s = (.ok n, s1)) :
    checkKw kw d = .ok () ∧ Created s parent name n (.dset d) [] s1 := by
  unfold mkDset at h
  split at h
  · simp at h
  · next hk =>
    split at h
    · simp at h
    · next m st hc =>
      simp at h
      obtain ⟨rfl, rfl⟩ := h
      obtain ⟨nd, ls, _, _, _, _, _, _, _, h5, _, _⟩ := Store.create_ok hc
      exact ⟨hk, st, hc, rfl, h5, fun _ _ => rfl⟩

theorem mkGroup_ok {parent name s n s1} (h : mkGroup parent name s = (.ok n, s1)) :
    Created s parent name n (.group []) [] s1 := by
  unfold mkGroup at h
  split at h
  · simp at h
  · next m st hc =>
    simp at h
    obtain ⟨rfl, rfl⟩ := h
    obtain ⟨nd, ls, _, _, _, _, _, _, _, h5, _, _⟩ := Store.create_ok hc
    exact ⟨st, hc, rfl, h5, fun _ _ => rfl⟩

theorem setAttr_ok {n k v s x s1} (h : setAttr n k v s = (.ok x, s1)) :
    s1 = { s with store := s.store.setAttr n k v } := by
  simp [setAttr] at h; exact h.symm

theorem Created.attr {s parent name n body at' s1} (h : Created s parent name n body at' s1) {k v x s2}
    (h2 : setAttr n k v s1 = (.ok x, s2)) : Created s parent name n body (Assoc.put at' k v) s2 := by
  obtain ⟨st, h1, h3, h4, h5⟩ := h
  have := setAttr_ok h2
  subst this
  refine ⟨st, h1, ?_, ?_, ?_⟩
  · simp only []; rw [h3]
  · exact Store.getElem?_setAttr_self h4 k v
  · intro m hm; simp only []; rw [Store.getElem?_setAttr_ne hm]; exact h5 m hm

/-! ### list items -/

theorem castPrefix_length {h : Heap} {d : DT} {items : List Addr} (hl : (castPrefix h d items).length = items.length) :
    items.mapM (castItem h d) = some (castPrefix h d items) := by
  induction items with
  | nil => rfl
  | cons a as ih =>
    simp only [castPrefix] at hl ⊢
    cases hc : castItem h d a with
    | none => rw [hc] at hl; simp at hl
    | some v =>
      rw [hc] at hl
      simp only [List.length_cons, Nat.add_right_cancel_iff] at hl
      simp [List.mapM_cons, hc, ih hl]

theorem DT.join_eq (a b : DT) : a.join b = a ∨ a.join b = b := by
  unfold DT.join; split <;> simp

theorem itemLoop_dt {env : Env} {h : Heap} {cur : ItemDT} {as : List Addr} {d : DT}
    (hl : itemLoop env h cur as = .ok (some (.num d))) :
    cur = .num d ∨ ∃ a ∈ as, ∃ p v, h[a]? = some p ∧ exactNum p = some v ∧ v.dt = d := by
  induction as generalizing cur with
  | nil => simp [itemLoop] at hl; exact .inl hl
  | cons a as ih =>
    simp only [itemLoop] at hl
    split at hl
    · simp at hl
    · simp at hl
    · next d' hs =>
      rcases ih hl with rfl | ⟨x, hx, r⟩
      · simp only [itemStep] at hs
        repeat' split at hs
        all_goals try (simp at hs; done)
        next p hp _ v hv _ d0 =>
          simp at hs
          rcases DT.join_eq d0 v.dt with hj | hj
          · left; rw [← hj, hs]
          · right; exact ⟨a, by simp, p, v, hp, hv, by rw [← hj, hs]⟩
      · exact .inr ⟨x, by simp [hx], r⟩

theorem checkItems_dt {env : Env} {h : Heap} {items : List Addr} {d : DT}
    (hl : checkItems env h items = .ok (some (.num d))) :
    items ≠ [] ∧ ∃ a ∈ items, ∃ p v, h[a]? = some p ∧ exactNum p = some v ∧ v.dt = d := by
  cases items with
  | nil => simp [checkItems] at hl
  | cons a as =>
    refine ⟨by simp, ?_⟩
    simp only [checkItems] at hl
    repeat' split at hl
    all_goals try (simp at hl; done)
    · next p hp _ v hv =>
      rcases itemLoop_dt hl with hj | ⟨x, hx, r⟩
      · simp at hj; exact ⟨a, by simp, p, v, hp, hv, hj⟩
      · exact ⟨x, by simp [hx], r⟩
    · rcases itemLoop_dt hl with hj | ⟨x, hx, r⟩
      · simp at hj
      · exact ⟨x, by simp [hx], r⟩

theorem hasDims_num {env : Env} {h : Heap} {a : Addr} {p : Obj} {v : NpVal} (hp : h[a]? = some p) (hv : exactNum p = some v) :
    hasDims env h a = .ok false := by
  obtain ⟨cl, val⟩ := p
  cases val <;> first | (simp only [hasDims, hp]; done) | (cases cl <;> simp [exactNum] at hv)

theorem itemLoop_none {env : Env} {h : Heap} {items : List Addr} {cur : ItemDT} (hl : itemLoop env h cur items = .ok none) :
    ∃ c ∈ items, ∃ p, h[c]? = some p ∧ exactNum p = none := by
  induction items generalizing cur with
  | nil => simp [itemLoop] at hl
  | cons a as ih =>
    simp only [itemLoop] at hl
    cases hp : h[a]? with
    | none => simp [itemStep, hasDims, hp] at hl
    | some p =>
      cases hv : exactNum p with
      | none => exact ⟨a, by simp, p, hp, hv⟩
      | some v =>
        have : ∃ c ∈ as, ∃ p, h[c]? = some p ∧ exactNum p = none := by
          simp only [itemStep, hasDims_num hp hv, hp, hv] at hl
          cases cur with
          | num d => exact ih hl
          | bytes => simp at hl
        obtain ⟨c, h1, h2⟩ := this
        exact ⟨c, by simp [h1], h2⟩

theorem checkItems_none {env : Env} {h : Heap} {items : List Addr} (hne : items ≠ []) (hl : checkItems env h items = .ok none) :
    ∃ c ∈ items, ∃ p, h[c]? = some p ∧ exactNum p = none := by
  cases items with
  | nil => exact absurd rfl hne
  | cons a as =>
    simp only [checkItems] at hl
    cases hp : h[a]? with
    | none => simp [hp] at hl
    | some p =>
      cases hv : exactNum p with
      | none => exact ⟨a, by simp, p, hp, hv⟩
      | some v =>
        simp only [hp, hv] at hl
        obtain ⟨c, h1, h2⟩ := itemLoop_none hl
        exact ⟨c, by simp [h1], h2⟩

theorem createItems_ok {c h items dt parent name s n subs s1}
    (he : createItems c h items dt parent name s = (.ok (n, subs), s1)) :
    ∃ at' od, Created s parent name n (bodyOf od) at' s1 ∧ Untyped at' ∧
      ((∃ d vs, dt = some (.num d) ∧ od = some (.vec d vs) ∧ subs = [] ∧ items.mapM (castItem h d) = some vs) ∨
       (dt = none ∧ od = none ∧ subs = listSubs 0 items ∧ Assoc.get? at' "num_items" = some (.int items.length))) := by
  unfold createItems at he
  split at he
  · next d =>
    rw [M.bind_ok_iff] at he
    obtain ⟨n', s', h1, h2⟩ := he
    split at h2
    · next hlen =>
      simp at h2
      obtain ⟨⟨rfl, rfl⟩, rfl⟩ := h2
      refine ⟨[], some _, (mkDset_ok h1).2, ⟨rfl, rfl⟩, .inl ⟨d, _, rfl, rfl, rfl, ?_⟩⟩
      rw [hlen]; simp only [Nat.sub_self, List.replicate_zero, List.append_nil]
      exact castPrefix_length hlen
    · simp at h2
  · simp at he
  · rw [M.bind_ok_iff] at he
    obtain ⟨n', s', h1, h2⟩ := he
    rw [M.bind_ok_iff] at h2
    obtain ⟨x, s2, h3, h4⟩ := h2
    simp at h4
    obtain ⟨⟨rfl, rfl⟩, rfl⟩ := h4
    refine ⟨_, none, (mkGroup_ok h1).attr h3, ?_, .inr ⟨rfl, rfl, rfl, ?_⟩⟩
    · simp [Untyped, Assoc.put, Assoc.get?]
    · simp

theorem createSeq_ok {c : DCtx} {h : Heap} {o : Obj} {items : List Addr} (hs : o.val = .seq items) {parent name s n subs s1}
    (he : createListlike c h o parent name s = (.ok (n, subs), s1)) :
    ∃ at' od, Created s parent name n (bodyOf od) at' s1 ∧ Untyped at' ∧ SeqHead h items at' od subs := by
  unfold createListlike at he
  rw [hs] at he
  cases items with
  | nil =>
    simp only [] at he
    rw [M.bind_ok_iff] at he
    obtain ⟨n', s', h1, h2⟩ := he
    simp at h2
    obtain ⟨⟨rfl, rfl⟩, rfl⟩ := h2
    exact ⟨[], some _, (mkDset_ok h1).2, ⟨rfl, rfl⟩, .nil rfl⟩
  | cons x xs =>
    have hne : x :: xs ≠ [] := by simp
    simp only [] at he
    cases hc : checkItems c.env h (x :: xs) with
    | error e => simp [hc] at he
    | ok dt =>
      simp only [hc] at he
      obtain ⟨at', od, h1, h2, ⟨d, vs, rfl, rfl, rfl, h3⟩ | ⟨rfl, rfl, rfl, h3⟩⟩ := createItems_ok he
      · exact ⟨at', _, h1, h2, .vec hne h3 (checkItems_dt hc).2⟩
      · exact ⟨at', _, h1, h2, .items hne (checkItems_none hne hc) h3⟩

theorem SeqHead.put {H : Heap} {items : List Addr} {at' od subs} (h : SeqHead H items at' od subs) {k : String} {v} (hk : k ≠ "num_items") :
    SeqHead H items (Assoc.put at' k v) od subs := by
  cases h with
  | nil h1 => exact .nil h1
  | vec h1 h2 h3 => exact .vec h1 h2 h3
  | items h1 h2 h3 => exact .items h1 h2 (by rw [Assoc.get?_put_ne _ _ hk]; exact h3)

theorem createRows_ok {c n sh ls parent name s m subs s1} (he : createRows c n sh ls parent name s = (.ok (m, subs), s1)) :
    ∃ at' od, Created s parent name m (bodyOf od) at' s1 ∧ Untyped at' ∧ ls.length = n * shSize sh ∧
      ((n = 0 ∧ od = some (.null "int") ∧ subs = []) ∨
       (n ≠ 0 ∧ od = none ∧ subs = nestSubs sh 0 n ls ∧ Assoc.get? at' "num_items" = some (.int n))) := by
  unfold createRows at he
  split at he
  · simp at he
  · next hl =>
    have hl : ls.length = n * shSize sh := by simpa using hl
    split at he
    · next hn =>
      rw [M.bind_ok_iff] at he
      obtain ⟨n', s', h1, h2⟩ := he
      simp at h2
      obtain ⟨⟨rfl, rfl⟩, rfl⟩ := h2
      exact ⟨[], some _, (mkDset_ok h1).2, ⟨rfl, rfl⟩, hl, .inl ⟨hn, rfl, rfl⟩⟩
    · next hn =>
      rw [M.bind_ok_iff] at he
      obtain ⟨n', s', h1, h2⟩ := he
      rw [M.bind_ok_iff] at h2
      obtain ⟨x, s2, h3, h4⟩ := h2
      simp at h4
      obtain ⟨⟨rfl, rfl⟩, rfl⟩ := h4
      refine ⟨_, none, (mkGroup_ok h1).attr h3, ?_, hl, .inr ⟨hn, rfl, rfl, ?_⟩⟩ <;> simp [Untyped, Assoc.put, Assoc.get?]

theorem withDtype_ok {x : DM (NodeId × Subs)} {d : AttrVal} {s r s1} (he : withDtype x d s = (.ok r, s1)) :
    ∃ s' y, x s = (.ok r, s') ∧ setAttr r.1 "np_dtype" d s' = (.ok y, s1) := by
  unfold withDtype at he
  rw [M.bind_ok_iff] at he
  obtain ⟨r', s', h1, h2⟩ := he
  rw [M.bind_ok_iff] at h2
  obtain ⟨y, s2, h3, h4⟩ := h2
  simp at h4
  obtain ⟨rfl, rfl⟩ := h4
  exact ⟨s', y, h1, h3⟩

theorem createStrings_ok {c : DCtx} {o : Obj} {w shape data} (hs : o.val = .sarr w shape data) {h parent name s n subs s1}
    (he : withDtype (createStrings c shape data parent name) (.udt w) s = (.ok (n, subs), s1)) :
    ∃ at' od, Created s parent name n (bodyOf od) at' s1 ∧ Untyped at' ∧ Head c.env h .npArray o at' od subs := by
  obtain ⟨s', y, h1, h2⟩ := withDtype_ok he
  simp only at h2
  cases shape with
  | nil =>
    match data, h1 with
    | [t], h1 =>
      simp only [createStrings] at h1
      cases hb : utf8Encode t with
      | none => simp [hb] at h1
      | some b =>
        simp only [hb] at h1
        rw [M.bind_ok_iff] at h1
        obtain ⟨n', s2, h3, h4⟩ := h1
        simp at h4
        obtain ⟨⟨rfl, rfl⟩, rfl⟩ := h4
        refine ⟨_, some _, (mkDset_ok h3).2.attr h2, ?_, .sstr hs hb ?_⟩ <;> simp [Untyped, Assoc.put, Assoc.get?]
    | [], h1 => simp [createStrings] at h1
    | _ :: _ :: _, h1 => simp [createStrings] at h1
  | cons k sh =>
    simp only [createStrings] at h1
    obtain ⟨at', od, g1, g2, g3, ⟨rfl, rfl, rfl⟩ | ⟨g4, rfl, rfl, g5⟩⟩ := createRows_ok h1
    · exact ⟨_, some _, g1.attr h2, g2.put (by decide) (by decide), .rowsNil (.str hs) (by simp)⟩
    · exact ⟨_, none, g1.attr h2, g2.put (by decide) (by decide), .rows (.str hs) g4 g3 (by simp)
        (by rw [Assoc.get?_put_ne _ _ (by decide)]; exact g5)⟩

theorem createObjects_ok {c : DCtx} {o : Obj} {shape items} (hs : o.val = .oarr shape items) {h parent name s n subs s1}
    (he : withDtype (createObjects c h shape items parent name) .odt s = (.ok (n, subs), s1)) :
    ∃ at' od, Created s parent name n (bodyOf od) at' s1 ∧ Untyped at' ∧ Head c.env h .npArray o at' od subs := by
  obtain ⟨s', y, h1, h2⟩ := withDtype_ok he
  simp only at h2
  have seq : ∀ {q : Obj} {l : List Addr}, q.val = .seq l → OList c.env h o l → createListlike c h q parent name s = (.ok (n, subs), s') →
      ∃ at' od, Created s parent name n (bodyOf od) at' s1 ∧ Untyped at' ∧ Head c.env h .npArray o at' od subs := by
    intro q l hq hl h3
    obtain ⟨at', od, g1, g2, g3⟩ := createSeq_ok hq h3
    exact ⟨_, od, g1.attr h2, g2.put (by decide) (by decide), .oseq hl (by simp) (g3.put (by decide))⟩
  have one : ∀ {a : Addr} {p : Obj}, o.val = .oarr [] [a] → h[a]? = some p → (∀ l, p.val = .seq l → Cls.list ∉ p.cls.mro c.env.u) →
      (do let n ← mkGroup parent name
          pure (n, [Except.ok ⟨ps "data", .addr a, []⟩]) : DM (NodeId × Subs)) s = (.ok (n, subs), s') →
      ∃ at' od, Created s parent name n (bodyOf od) at' s1 ∧ Untyped at' ∧ Head c.env h .npArray o at' od subs := by
    intro a p ho hp hl h3
    rw [M.bind_ok_iff] at h3
    obtain ⟨n', s2, h4, h5⟩ := h3
    simp at h5
    obtain ⟨⟨rfl, rfl⟩, rfl⟩ := h5
    exact ⟨_, none, (mkGroup_ok h4).attr h2, by simp [Untyped, Assoc.put, Assoc.get?], .oone ho hp hl (by simp) (by simp [Assoc.put, Assoc.get?])⟩
  match shape, items, hs, h1 with
  | [], [a], hs, h1 =>
    simp only [createObjects] at h1
    cases hp : h[a]? with
    | none => simp [hp] at h1
    | some p =>
      obtain ⟨cl, val⟩ := p
      rw [hp] at h1
      by_cases hv : ∃ l, val = .seq l
      · obtain ⟨l, rfl⟩ := hv
        simp only [] at h1
        split at h1
        · next hm => exact seq rfl (.zero hs hp hm) h1
        · next hm => exact one hs hp (fun _ _ => hm) h1
      · have h1' : (do let n ← mkGroup parent name
                       pure (n, [Except.ok ⟨ps "data", .addr a, []⟩]) : DM (NodeId × Subs)) s = (.ok (n, subs), s') := by
          cases val <;> first | exact h1 | exact absurd ⟨_, rfl⟩ hv
        exact one hs hp (fun l hl => absurd ⟨l, hl⟩ hv) h1'
  | [], [], _, h1 => simp [createObjects] at h1
  | [], _ :: _ :: _, _, h1 => simp [createObjects] at h1
  | [k], items, hs, h1 => simp only [createObjects] at h1; exact seq rfl (.one hs) h1
  | k :: k2 :: sh, items, hs, h1 =>
    simp only [createObjects] at h1
    obtain ⟨at', od, g1, g2, g3, ⟨rfl, rfl, rfl⟩ | ⟨g4, rfl, rfl, g5⟩⟩ := createRows_ok h1
    · exact ⟨_, some _, g1.attr h2, g2.put (by decide) (by decide), .rowsNil (.obj hs) (by simp)⟩
    · exact ⟨_, none, g1.attr h2, g2.put (by decide) (by decide), .rows (.obj hs) g4 g3 (by simp)
        (by rw [Assoc.get?_put_ne _ _ (by decide)]; exact g5)⟩

/-! ### create functions -/

theorem leaf_ok {x : DM NodeId} {s n subs s1} (h : leaf x s = (.ok (n, subs), s1)) :
    x s = (.ok n, s1) ∧ subs = [] := by
  unfold leaf at h
  rw [M.bind_ok_iff] at h
  obtain ⟨a, s', h1, h2⟩ := h
  simp at h2
  obtain ⟨⟨rfl, rfl⟩, rfl⟩ := h2
  exact ⟨h1, rfl⟩

/-- every create function creates one node and records the object in it -/
theorem createFn_ok {c : DCtx} {fn h o parent name s n subs s1}
    (he : createFn c fn h o parent name s = (.ok (n, subs), s1)) :
    ∃ at' od, Created s parent name n (bodyOf od) at' s1 ∧ Untyped at' ∧
      Head c.env h fn o at' od subs := by
  unfold createFn at he
  split at he
  · obtain ⟨h1, rfl⟩ := leaf_ok he
    unfold createScalar at h1
    cases hi : o.val <;> simp only [hi, M.throw_apply] at h1
    case int i =>
      split at h1
      · next hb =>
        split at h1
        · next hd => exact ⟨[], some _, (mkDset_ok h1).2, ⟨rfl, rfl⟩, .intBig hi hb hd⟩
        · simp at h1
      · next hb => exact ⟨[], some _, (mkDset_ok h1).2, ⟨rfl, rfl⟩, .int hi (by omega)⟩
    case bool => exact ⟨[], some _, (mkDset_ok h1).2, ⟨rfl, rfl⟩, .bool hi⟩
    case float => exact ⟨[], some _, (mkDset_ok h1).2, ⟨rfl, rfl⟩, .float hi⟩
    case cplx => exact ⟨[], some _, (mkDset_ok h1).2, ⟨rfl, rfl⟩, .cplx hi⟩
    all_goals simp at h1
  · obtain ⟨h1, rfl⟩ := leaf_ok he
    exact ⟨[], some _, (mkDset_ok h1).2, ⟨rfl, rfl⟩, .none⟩
  · unfold createListlike at he
    cases hs : o.val <;> simp only [hs, M.throw_apply] at he
    case str str =>
      cases hb : utf8Encode str with
      | none => simp [hb] at he
      | some b =>
        simp only [hb] at he
        rw [M.bind_ok_iff] at he
        obtain ⟨n', s', h1, h2⟩ := he
        rw [M.bind_ok_iff] at h2
        obtain ⟨x, s2, h3, h4⟩ := h2
        simp at h4
        obtain ⟨⟨rfl, rfl⟩, rfl⟩ := h4
        refine ⟨_, some _, (mkDset_ok h1).2.attr h3, ?_, .str hs hb ?_⟩ <;> simp [Untyped, Assoc.put, Assoc.get?]
    case bytes b =>
        rw [M.bind_ok_iff] at he
        obtain ⟨n', s', h1, h2⟩ := he
        rw [M.bind_ok_iff] at h2
        obtain ⟨x, s2, h3, h4⟩ := h2
        simp at h4
        obtain ⟨⟨rfl, rfl⟩, rfl⟩ := h4
        refine ⟨_, some _, (mkDset_ok h1).2.attr h3, ?_, .bytes hs ?_⟩ <;> simp [Untyped, Assoc.put, Assoc.get?]
    case seq items =>
      obtain ⟨at', od, h1, h2, h3⟩ := createSeq_ok hs (by unfold createListlike; simp only [hs]; exact he)
      refine ⟨at', od, h1, h2, ?_⟩
      cases h3 with
      | nil g1 => subst g1; exact .seqNil hs
      | vec g1 g2 g3 => exact .seqVec hs g1 g2 g3
      | items g1 g2 g3 => exact .seqItems hs g1 g2 g3
    all_goals simp at he
  · unfold createSetlike at he
    cases hs : o.val <;> simp only [hs, M.throw_apply] at he
    case set items =>
      cases items with
      | nil =>
        simp only [] at he
        rw [M.bind_ok_iff] at he
        obtain ⟨n', s', h1, h2⟩ := he
        simp at h2
        obtain ⟨⟨rfl, rfl⟩, rfl⟩ := h2
        exact ⟨[], some _, (mkDset_ok h1).2, ⟨rfl, rfl⟩, .setNil hs⟩
      | cons x xs =>
        have hne : x :: xs ≠ [] := by simp
        simp only [] at he
        cases hc : checkItems c.env h (x :: xs) with
        | error e => simp [hc] at he
        | ok dt =>
          simp only [hc] at he
          obtain ⟨at', od, h1, h2, ⟨d, vs, rfl, rfl, rfl, h3⟩ | ⟨rfl, rfl, rfl, h3⟩⟩ := createItems_ok he
          · exact ⟨at', _, h1, h2, .setVec hs hne h3 (checkItems_dt hc).2⟩
          · exact ⟨at', _, h1, h2, .setItems hs hne (checkItems_none hne hc)⟩
    all_goals simp at he
  · unfold createDictlike at he
    cases hs : o.val <;> simp only [hs, M.throw_apply] at he
    case dict es =>
        rw [M.bind_ok_iff] at he
        obtain ⟨n', s', h1, h2⟩ := he
        simp at h2
        obtain ⟨⟨rfl, rfl⟩, rfl⟩ := h2
        exact ⟨[], none, mkGroup_ok h1, ⟨rfl, rfl⟩, .dict hs⟩
    all_goals simp at he
  · obtain ⟨h1, rfl⟩ := leaf_ok he
    unfold createNpScalar at h1
    cases hs : o.val <;> simp only [hs, M.throw_apply] at h1
    case np v =>
        rw [M.bind_ok_iff] at h1
        obtain ⟨n', s', h1, h2⟩ := h1
        rw [M.bind_ok_iff] at h2
        obtain ⟨x, s2, h3, h4⟩ := h2
        simp at h4
        obtain ⟨rfl, rfl⟩ := h4
        refine ⟨_, some _, (mkDset_ok h1).2.attr h3, ?_, .np hs ?_⟩ <;> simp [Untyped, Assoc.put, Assoc.get?]
    all_goals simp at h1
  · unfold createNpArray at he
    cases hs : o.val <;> simp only [hs, M.throw_apply] at he
    case arr d shape data =>
        obtain ⟨s', y, h1, h2⟩ := withDtype_ok he
        rw [M.bind_ok_iff] at h1
        obtain ⟨n', s2, h3, h4⟩ := h1
        simp at h4
        obtain ⟨⟨rfl, rfl⟩, rfl⟩ := h4
        refine ⟨_, some _, (mkDset_ok h3).2.attr h2, ?_, .arr hs ?_⟩ <;> simp [Untyped, Assoc.put, Assoc.get?]
    case sarr w shape data => exact createStrings_ok hs he
    case oarr shape items => exact createObjects_ok hs he
    all_goals simp at he
  · unfold createMasked at he
    cases hs : o.val <;> simp only [hs, M.throw_apply] at he
    case masked d shape data mask =>
        rw [M.bind_ok_iff] at he
        obtain ⟨n', s', h1, h2⟩ := he
        rw [M.bind_ok_iff] at h2
        obtain ⟨x, s2, h3, h4⟩ := h2
        simp at h4
        obtain ⟨⟨rfl, rfl⟩, rfl⟩ := h4
        refine ⟨_, none, (mkGroup_ok h1).attr h3, ?_, .masked hs ?_⟩ <;> simp [Untyped, Assoc.put, Assoc.get?]
    all_goals simp at he
  · unfold createSparse at he
    cases hs : o.val <;> simp only [hs, M.throw_apply] at he
    case sparse d i p shape =>
      by_cases hl : shape.length = 2
      · rw [if_neg (by simp [hl])] at he
        rw [M.bind_ok_iff] at he
        obtain ⟨n', s', h1, h2⟩ := he
        simp at h2
        obtain ⟨⟨rfl, rfl⟩, rfl⟩ := h2
        exact ⟨[], none, mkGroup_ok h1, ⟨rfl, rfl⟩, .sparse hs hl⟩
      · rw [if_pos (by simp [hl])] at he
        simp at he
    all_goals simp at he
  · obtain ⟨h1, rfl⟩ := leaf_ok he
    unfold createPickled at h1
    cases hs : o.val <;> simp only [hs, M.throw_apply] at h1
    case «opaque» st p =>
      cases p with
      | true => exact ⟨[], some _, (mkDset_ok h1).2, ⟨rfl, rfl⟩, .pickled hs⟩
      | false => simp at h1
    all_goals simp at h1
  all_goals simp at he

/-! ### create functions never raise `NotHicklable` -/

/-- the computation does not raise `NotHicklable` -/
def NoNH {α : Type} (x : DM α) : Prop := ∀ s s', x s ≠ (.error .notHicklable, s')

theorem NoNH.bind {α β : Type} {x : DM α} {f : α → DM β} (hx : NoNH x) (hf : ∀ a, NoNH (f a)) : NoNH (x >>= f) := by
  intro s s' h
  rw [M.bind_apply] at h
  split at h
  · exact hf _ _ _ h
  · next e s1 hs => simp at h; obtain ⟨rfl, rfl⟩ := h; exact hx _ _ hs

theorem NoNH.pure {α : Type} (a : α) : NoNH (pure a : DM α) := by intro s s' h; simp at h
theorem NoNH.throw {α : Type} {e : PyErr} (he : e ≠ .notHicklable) : NoNH (M.throw e : DM α) := by
  intro s s' h; simp at h; exact he h.1
theorem NoNH.modify (f : DState → DState) : NoNH (M.modify f) := by intro s s' h; simp at h

theorem Store.create_err {s : Store} {p name body e} (h : s.create p name body = .error e) : e ≠ .notHicklable := by
  unfold Store.create at h
  repeat' split at h
  all_goals (simp at h; try (subst h; simp))

theorem checkKw_err {kw d e} (h : checkKw kw d = .error e) : e ≠ .notHicklable := by
  unfold checkKw at h
  repeat' split at h
  all_goals (simp at h; try (subst h; simp))

theorem NoNH.mkDset (kw parent name d) : NoNH (mkDset kw parent name d) := by
  intro s s' h
  unfold Verif.mkDset at h
  split at h
  · next hk => simp at h; exact checkKw_err hk h.1
  · split at h
    · next hk => simp at h; exact Store.create_err hk h.1
    · simp at h

theorem NoNH.mkGroup (parent name) : NoNH (mkGroup parent name) := by
  intro s s' h
  unfold Verif.mkGroup at h
  split at h
  · next hk => simp at h; exact Store.create_err hk h.1
  · simp at h

theorem itemLoop_err {env h cur as e} (hl : itemLoop env h cur as = .error e) : e ≠ .notHicklable := by
  induction as generalizing cur with
  | nil => simp [itemLoop] at hl
  | cons a as ih =>
    simp only [itemLoop] at hl
    split at hl
    · next e' hs =>
      simp at hl; subst hl
      unfold itemStep at hs
      split at hs
      · next hd =>
        simp at hs; subst hs
        unfold hasDims at hd
        repeat' split at hd
        all_goals (simp at hd; try (subst hd; simp))
      · simp at hs
      · repeat' split at hs
        all_goals (simp at hs; try (subst hs; simp))
    · simp at hl
    · exact ih hl

theorem checkItems_err {env h items e} (hl : checkItems env h items = .error e) : e ≠ .notHicklable := by
  unfold checkItems at hl
  repeat' split at hl
  all_goals first | exact itemLoop_err hl | (simp at hl; done) | (simp at hl; subst hl; simp)

theorem NoNH.createItems (c h items dt parent name) : NoNH (createItems c h items dt parent name) := by
  unfold Verif.createItems
  split
  · exact .bind (.mkDset _ _ _ _) fun n => by
      split
      · exact .pure _
      · exact .throw (by decide)
  · exact .throw (by decide)
  · exact .bind (.mkGroup _ _) fun n => .bind (.modify _) fun _ => .pure _

theorem NoNH.createListlike (c h o parent name) : NoNH (createListlike c h o parent name) := by
  unfold Verif.createListlike
  repeat' split
  all_goals first
    | exact .throw (by decide)
    | exact .createItems _ _ _ _ _ _
    | exact .bind (.mkDset _ _ _ _) fun n => .bind (.modify _) fun _ => .pure _
    | exact .bind (.mkDset _ _ _ _) fun n => .pure _
    | exact .throw (checkItems_err (by assumption))

theorem NoNH.createRows (c n sh ls parent name) : NoNH (createRows c n sh ls parent name) := by
  unfold Verif.createRows
  split
  · exact .throw (by decide)
  · split
    · exact .bind (.mkDset _ _ _ _) fun n => .pure _
    · exact .bind (.mkGroup _ _) fun n => .bind (.modify _) fun _ => .pure _

theorem NoNH.createNpArray (c h o parent name) : NoNH (createNpArray c h o parent name) := by
  unfold Verif.createNpArray
  split
  · exact .bind (.bind (.mkDset _ _ _ _) fun n => .pure _) fun _ => .bind (.modify _) fun _ => .pure _
  · refine .bind ?_ fun _ => .bind (.modify _) fun _ => .pure _
    unfold createStrings
    repeat' split
    all_goals first
      | exact .throw (by decide)
      | exact .createRows _ _ _ _ _ _
      | exact .bind (.mkDset _ _ _ _) fun n => .pure _
  · refine .bind ?_ fun _ => .bind (.modify _) fun _ => .pure _
    unfold createObjects
    repeat' split
    all_goals first
      | exact .throw (by decide)
      | exact .createRows _ _ _ _ _ _
      | exact .createListlike _ _ _ _ _
      | exact .bind (.mkGroup _ _) fun n => .pure _
  · exact .throw (by decide)

theorem createFn_noNH {c fn h o parent name} (hf : fn ≠ .refusing) : NoNH (createFn c fn h o parent name) := by
  unfold createFn
  split
  · refine .bind ?_ fun n => .pure _
    unfold createScalar
    repeat' split
    all_goals first | exact .mkDset _ _ _ _ | exact .throw (by decide)
  · exact .bind (.mkDset _ _ _ _) fun n => .pure _
  · exact .createListlike _ _ _ _ _
  · unfold createSetlike
    repeat' split
    all_goals first
      | exact .throw (by decide)
      | exact .createItems _ _ _ _ _ _
      | exact .bind (.mkDset _ _ _ _) fun n => .pure _
      | exact .throw (checkItems_err (by assumption))
  · unfold createDictlike
    split
    · exact .bind (.mkGroup _ _) fun n => .pure _
    · exact .throw (by decide)
  · refine .bind ?_ fun n => .pure _
    unfold createNpScalar
    split
    · exact .bind (.mkDset _ _ _ _) fun n => .bind (.modify _) fun _ => .pure _
    · exact .throw (by decide)
  · exact .createNpArray _ _ _ _ _
  · unfold createMasked
    split
    · exact .bind (.mkGroup _ _) fun n => .bind (.modify _) fun _ => .pure _
    · exact .throw (by decide)
  · unfold createSparse
    split
    · split
      · exact .throw (by decide)
      · exact .bind (.mkGroup _ _) fun n => .pure _
    · exact .throw (by decide)
  · refine .bind ?_ fun n => .pure _
    unfold createPickled
    repeat' split
    · exact .mkDset _ _ _ _
    · exact .throw (by decide)
    · exact .throw (by decide)
  · exact .throw (by decide)
  · exact absurd rfl hf
  · exact .throw (by decide)
  · exact .throw (by decide)

theorem firstStd_fn {ks : List Cls} {e : Entry} (h : firstStd ks = some e) : e.fn ≠ .refusing ∧ e.base.toList ≠ [] := by
  induction ks with
  | nil => simp [firstStd] at h
  | cons k ks ih =>
    simp only [firstStd] at h
    split at h
    · next p e' hs =>
      simp at h; subst h
      cases k <;> simp [stdReg] at hs <;> obtain ⟨_, rfl⟩ := hs <;> exact ⟨by simp, by decide⟩
    · exact ih h

theorem expected_fn (env : Env) (c : Cls) : (expected env c).2.fn ≠ .refusing ∧ (expected env c).2.base.toList ≠ [] := by
  unfold expected
  split
  · next e he => exact firstStd_fn he
  · exact ⟨by simp, by decide⟩

/-! ### the types table -/

/-- entry of class `cls` in the types table -/
def EntryOk (env : Env) (S : Store) (cls : Cls) (e : NodeId) : Prop :=
  ∃ nd b bn, S[e]? = some nd ∧ nd.body = .dset (.pickleCls cls) ∧
    Assoc.get? nd.attrs "base_type" = some (.ref b) ∧ S[b]? = some bn ∧ bn.name = ps (expected env cls).2.base

theorem EntryOk.ext {env : Env} {S S' : Store} {cls e} (hx : SExt S S') (h : EntryOk env S cls e) : EntryOk env S' cls e := by
  obtain ⟨nd, b, bn, h1, h2, h3, h4, h5⟩ := h
  obtain ⟨nd', e1, l1⟩ := hx _ _ h1
  obtain ⟨bn', e2, l2⟩ := hx _ _ h4
  exact ⟨nd', b, bn', e1, l1.dset _ h2, by rw [l1.attrs]; exact h3, e2, by rw [l2.name]; exact h5⟩

/-- the tables of the `ReferenceManager` agree with the file -/
structure TInv0 (c : DCtx) (s : DState) : Prop where
  tab : ∃ ls, s.store.links c.table = some ls
  tl : ∀ cls e, Assoc.get? s.tlinks cls = some e → EntryOk c.env s.store cls e
  bl : ∀ b n, Assoc.get? s.blinks b = some n → ∃ nd, s.store[n]? = some nd ∧ nd.name = ps b

/-- a member of the types table: a base type, or the entry the manager knows for its class -/
def TabEnt (S : Store) (tl : List (Cls × NodeId)) (n : NodeId) : Prop :=
  ∃ nd, S[n]? = some nd ∧ (nd.body = .dset (.null "S1") ∨
    ∃ cls, nd.body = .dset (.pickleCls cls) ∧ Assoc.get? tl cls = some n)

structure TInv (c : DCtx) (s : DState) : Prop extends TInv0 c s where
  ents : ∀ ls, s.store.links c.table = some ls → ∀ p ∈ ls, TabEnt s.store s.tlinks p.2

theorem TabEnt.ext {S S' : Store} {tl n} (hx : SExt S S') (h : TabEnt S tl n) : TabEnt S' tl n := by
  obtain ⟨nd, h1, h2⟩ := h
  obtain ⟨nd', e1, l1⟩ := hx _ _ h1
  refine ⟨nd', e1, ?_⟩
  rcases h2 with h2 | ⟨cls, h2, h3⟩
  · exact .inl (l1.dset _ h2)
  · exact .inr ⟨cls, l1.dset _ h2, h3⟩

theorem TInv0.ext {c : DCtx} {s s' : DState} (h : TInv0 c s) (hx : SExt s.store s'.store)
    (ht : s'.tlinks = s.tlinks) (hb : s'.blinks = s.blinks) : TInv0 c s' where
  tab := by
    obtain ⟨ls, hl⟩ := h.tab
    obtain ⟨nd, h1, h2⟩ := Store.links_eq hl
    obtain ⟨nd', e1, l1⟩ := hx _ _ h1
    obtain ⟨l', e2⟩ := l1.group _ h2
    exact ⟨_, Store.links_of e1 e2⟩
  tl cls e he := (h.tl cls e (ht ▸ he)).ext hx
  bl b n hn := by
    obtain ⟨nd, h1, h2⟩ := h.bl b n (hb ▸ hn)
    obtain ⟨nd', e1, l1⟩ := hx _ _ h1
    exact ⟨nd', e1, by rw [l1.name]; exact h2⟩

theorem TInv.ext {c : DCtx} {s s' : DState} (h : TInv c s) (hx : SExt s.store s'.store)
    (ht : s'.tlinks = s.tlinks) (hb : s'.blinks = s.blinks) (hl : s'.store.links c.table = s.store.links c.table) : TInv c s' where
  toTInv0 := h.toTInv0.ext hx ht hb
  ents ls hls p hp := by rw [ht]; exact (h.ents ls (hl ▸ hls) p hp).ext hx

/-- names that can not be encoded are refused -/
theorem Created.name {s p name n body at' s1} (h : Created s p name n body at' s1) : (utf8Encode name).isSome = true := by
  obtain ⟨st, h1, _⟩ := h
  unfold Store.create at h1
  split at h1
  · simp at h1
  · split at h1
    · simp at h1
    · split at h1
      · simp at h1
      · next h => cases hx : utf8Encode name <;> simp_all

/-- what a successful `Created` means for the other nodes -/
theorem Created.facts {s p name n body at' s1} (h : Created s p name n body at' s1) :
    ∃ nd ls, s.store[p]? = some nd ∧ nd.body = .group ls ∧ n = s.store.length ∧
      s1.store[p]? = some { nd with body := .group (ls ++ [(name, n)]) } ∧
      s1.store[n]? = some ⟨name, at', body⟩ ∧
      (∀ m, m ≠ p → m ≠ n → s1.store[m]? = s.store[m]?) ∧ SExt s.store s1.store ∧ n ≠ p := by
  obtain ⟨st, h1, h2, h3, h4⟩ := h
  obtain ⟨nd, ls, e1, e2, _, _, _, e3, _, e5, e6, e7⟩ := Store.create_ok h1
  have hp := lt_of_getElem? e1
  have hpn : p ≠ n := by omega
  refine ⟨nd, ls, e1, e2, e3, ?_, h3, ?_, ?_, Ne.symm hpn⟩
  · rw [h4 p hpn]; exact e6
  · intro m hm1 hm2; rw [h4 m hm2]; exact e7 m hm1 hm2
  · intro m md hm
    have hml := lt_of_getElem? hm
    obtain ⟨nd', g1, g2⟩ := SExt.create h1 m md hm
    exact ⟨nd', by rw [h4 m (by omega)]; exact g1, g2⟩

theorem baseEntry_ok {c : DCtx} {b : String} {s s1 : DState} {n : NodeId} (hT : TInv0 c s)
    (h : baseEntry c b s = (.ok n, s1)) :
    TInv0 c s1 ∧ (∃ nd, s1.store[n]? = some nd ∧ nd.name = ps b) ∧ SExt s.store s1.store ∧
      (∀ m nd, m ≠ c.table → s.store[m]? = some nd → s1.store[m]? = some nd) ∧
      s1.heap = s.heap ∧ s1.memo = s.memo ∧ s1.reg = s.reg ∧ s1.tlinks = s.tlinks ∧
      (∀ ls, s.store.links c.table = some ls → ∃ ls', s1.store.links c.table = some (ls ++ ls') ∧
        ∀ p ∈ ls', ∃ nd, s1.store[p.2]? = some nd ∧ nd.body = .dset (.null "S1")) := by
  unfold baseEntry at h
  rw [M.bind_of_ok (M.get_apply s)] at h
  cases hb : Assoc.get? s.blinks b with
  | some b' =>
    simp [hb] at h
    obtain ⟨rfl, rfl⟩ := h
    exact ⟨hT, hT.bl _ _ hb, SExt.refl _, fun _ _ _ h => h, rfl, rfl, rfl, rfl, fun ls h => ⟨[], by simpa using h, by simp⟩⟩
  | none =>
    simp only [hb] at h
    rw [M.bind_ok_iff] at h
    obtain ⟨n', s2, h1, h2⟩ := h
    simp only [M.bind_of_ok (M.modify_apply _ _), M.pure_apply, Prod.mk.injEq, Except.ok.injEq] at h2
    obtain ⟨rfl, rfl⟩ := h2
    obtain ⟨_, hc⟩ := mkDset_ok h1
    have hs2 : s2 = { s with store := s2.store } := by obtain ⟨_, _, e, _⟩ := hc; exact e
    obtain ⟨nd, ls, e1, e2, e3, e4, e5, e6, e7, e8⟩ := hc.facts
    have hTs2 : TInv0 c s2 := hT.ext e7 (by rw [hs2]) (by rw [hs2])
    refine ⟨⟨hTs2.tab, hTs2.tl, ?_⟩, ⟨_, e5, rfl⟩, e7, ?_, ?_⟩
    · intro b2 m hm
      simp only [Assoc.get?_put] at hm
      split at hm
      · next hbb => simp at hm; subst hm; subst hbb; exact ⟨_, e5, rfl⟩
      · exact hTs2.bl _ _ hm
    · intro m md hm hmd
      have := lt_of_getElem? hmd
      simp only []
      rw [e6 m hm (by omega)]; exact hmd
    · refine ⟨by rw [hs2], by rw [hs2], by rw [hs2], by rw [hs2], ?_⟩
      intro ls0 hls0
      obtain ⟨nd0, k1, k2⟩ := Store.links_eq hls0
      rw [e1] at k1; simp at k1; subst k1
      rw [e2] at k2; simp at k2; subst k2
      refine ⟨[(ps b, n')], Store.links_of e4 rfl, ?_⟩
      intro p hp
      simp at hp; subst hp
      exact ⟨_, e5, rfl⟩

theorem typeEntryNode_ok {c : DCtx} {cls : Cls} {s s1 : DState} {e : NodeId} (hT : TInv c s)
    (h : typeEntryNode c cls (expected c.env cls).2.base s = (.ok e, s1)) :
    TInv c s1 ∧ EntryOk c.env s1.store cls e ∧ SExt s.store s1.store ∧
      (∀ m nd, m ≠ c.table → s.store[m]? = some nd → s1.store[m]? = some nd) ∧
      s1.heap = s.heap ∧ s1.memo = s.memo ∧ s1.reg = s.reg := by
  unfold typeEntryNode at h
  rw [M.bind_of_ok (M.get_apply s)] at h
  cases ht : Assoc.get? s.tlinks cls with
  | some e' =>
    simp [ht] at h
    obtain ⟨rfl, rfl⟩ := h
    exact ⟨hT, hT.tl _ _ ht, SExt.refl _, fun _ _ _ h => h, rfl, rfl, rfl⟩
  | none =>
    simp only [ht] at h
    rw [if_neg (expected_fn c.env cls).2] at h
    split at h
    · simp at h
    · obtain ⟨ls, hls⟩ := hT.tab
      simp only [hls] at h
      rw [M.bind_ok_iff] at h
      obtain ⟨e', s2, h1, h⟩ := h
      rw [M.bind_ok_iff] at h
      obtain ⟨b, s3, h2, h⟩ := h
      rw [M.bind_ok_iff] at h
      obtain ⟨x, s4, h3, h⟩ := h
      simp only [M.bind_of_ok (M.modify_apply _ _), M.pure_apply, Prod.mk.injEq, Except.ok.injEq] at h
      obtain ⟨rfl, rfl⟩ := h
      obtain ⟨_, hc⟩ := mkDset_ok h1
      have hs2 : s2 = { s with store := s2.store } := by obtain ⟨_, _, e, _⟩ := hc; exact e
      obtain ⟨nd, ls', a1, a2, a3, a4, a5, a6, a7, a8⟩ := hc.facts
      have hT2 : TInv0 c s2 := hT.toTInv0.ext a7 (by rw [hs2]) (by rw [hs2])
      obtain ⟨hT3, ⟨bn, b1, b2⟩, b3, b4, b5, b6, b7, b8, b9⟩ := baseEntry_ok hT2 h2
      have h4 := setAttr_ok h3
      have he3 : s3.store[e']? = some ⟨digits ls.length, [], .dset (.pickleCls cls)⟩ := b4 _ _ a8 a5
      have hs4e : s4.store[e']? = some ⟨digits ls.length, [("base_type", .ref b)], .dset (.pickleCls cls)⟩ := by
        rw [h4]; exact Store.getElem?_setAttr_self he3 _ _
      have hs4 : ∀ m, m ≠ e' → s4.store[m]? = s3.store[m]? := by
        intro m hm; rw [h4]; exact Store.getElem?_setAttr_ne hm _ _
      have hlt := fun m md (h : s.store[m]? = some md) => lt_of_getElem? h
      have hext : SExt s.store s4.store := by
        intro m md hm
        obtain ⟨nd', g1, g2⟩ := (a7.trans b3) m md hm
        refine ⟨nd', ?_, g2⟩
        rw [hs4 m (by have := hlt m md hm; omega)]; exact g1
      have hsame : ∀ m nd, m ≠ c.table → s.store[m]? = some nd → s4.store[m]? = some nd := by
        intro m md hm hmd
        have hl := hlt m md hmd
        rw [hs4 m (by omega)]
        exact b4 _ _ hm (by rw [a6 m hm (by omega)]; exact hmd)
      have hentry : EntryOk c.env s4.store cls e' := by
        by_cases hbe : b = e'
        · subst hbe
          refine ⟨_, _, _, hs4e, rfl, rfl, hs4e, ?_⟩
          rw [he3] at b1; simp at b1; subst b1; exact b2
        · exact ⟨_, b, bn, hs4e, rfl, rfl, by rw [hs4 b hbe]; exact b1, b2⟩
      have hm : s4.heap = s3.heap ∧ s4.memo = s3.memo ∧ s4.reg = s3.reg ∧ s4.tlinks = s3.tlinks ∧ s4.blinks = s3.blinks := by
        rw [h4]; simp
      have hm2 : s2.heap = s.heap ∧ s2.memo = s.memo ∧ s2.reg = s.reg ∧ s2.tlinks = s.tlinks := by
        rw [hs2]; simp
      have hls' : ls' = ls := by
        obtain ⟨nd0, k1, k2⟩ := Store.links_eq hls
        rw [a1] at k1; simp at k1; subst k1
        rw [a2] at k2; simp at k2; exact k2
      refine ⟨⟨⟨?_, ?_, ?_⟩, ?_⟩, hentry, hext, hsame, ?_, ?_, ?_⟩
      · obtain ⟨ls3, g⟩ := hT3.tab
        obtain ⟨nd3, g1, g2⟩ := Store.links_eq g
        refine ⟨ls3, Store.links_of (nd := nd3) ?_ g2⟩
        simp only []
        rw [hs4 _ (Ne.symm a8)]; exact g1
      · intro cls2 e2 he2
        simp only [Assoc.get?_put] at he2
        split at he2
        · next hcc => simp at he2; subst he2; subst hcc; exact hentry
        · rw [hm.2.2.2.1, b8, hm2.2.2.2] at he2
          exact (hT.tl _ _ he2).ext hext
      · intro b' m hm'
        simp only [] at hm'
        rw [hm.2.2.2.2] at hm'
        obtain ⟨nd', g1, g2⟩ := hT3.bl _ _ hm'
        simp only []
        by_cases hme : m = e'
        · subst hme
          rw [he3] at g1; simp at g1; subst g1
          exact ⟨_, hs4e, g2⟩
        · exact ⟨nd', by rw [hs4 m hme]; exact g1, g2⟩
      · intro lsT hlsT p hp
        obtain ⟨lsN, n1, n2⟩ := b9 (ls' ++ [(digits ls.length, e')]) (Store.links_of a4 rfl)
        have : s4.store.links c.table = s3.store.links c.table := Store.links_congr (hs4 _ (Ne.symm a8))
        simp only [] at hlsT ⊢
        rw [this, n1] at hlsT
        simp only [Option.some.injEq] at hlsT
        subst hlsT
        simp only [List.append_assoc, List.mem_append, List.mem_singleton] at hp
        rcases hp with hp | rfl | hp
        · obtain ⟨md, g1, g2⟩ := (hT.ents ls hls p (hls' ▸ hp)).ext hext
          refine ⟨md, g1, ?_⟩
          rcases g2 with g2 | ⟨cls2, g2, g3⟩
          · exact .inl g2
          · refine .inr ⟨cls2, g2, ?_⟩
            rw [Assoc.get?_put_ne]
            · rw [hm.2.2.2.1, b8, hm2.2.2.2]; exact g3
            · rintro rfl; rw [ht] at g3; simp at g3
        · exact ⟨_, hs4e, .inr ⟨cls, rfl, Assoc.get?_put_self _ _ _⟩⟩
        · obtain ⟨md, g1, g2⟩ := n2 p hp
          have : p.2 ≠ e' := by
            intro hc; rw [hc, he3] at g1; simp at g1; subst g1; simp at g2
          exact ⟨md, by rw [hs4 _ this]; exact g1, .inl g2⟩
      · exact hm.1.trans (b5.trans hm2.1)
      · exact hm.2.1.trans (b6.trans hm2.2.1)
      · exact hm.2.2.1.trans (b7.trans hm2.2.2.1)

end Verif
