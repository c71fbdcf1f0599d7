import Verif.Props.Basic
import Verif.Hickle.LoadAll
/-!
# What a dump that returned has stored for every part of the object
-/
namespace Verif

theorem Kids.mem {base : Nat} {H : Heap} {S : Store} {W : Rel} {ls subs} (h : Kids base H S W ls subs) {sb : Sub} (hs : Except.ok sb ∈ subs) :
    (utf8Encode sb.name).isSome = true ∧ ∃ a m, (sb.name, m) ∈ ls ∧ SubAt base H sb.obj a ∧ Child S W m a sb.attrs := by
  induction h with
  | nil => simp at hs
  | cons h0 h1 h2 _ ih =>
    rcases List.mem_cons.1 hs with hs | hs
    · simp at hs; subst hs; exact ⟨h0, _, _, List.mem_cons_self .., h1, h2⟩
    · obtain ⟨k0, a, m, k1, k2⟩ := ih hs
      exact ⟨k0, a, m, List.mem_cons_of_mem _ k1, k2⟩

theorem listSubs_of_mem {items : List Addr} {a : Addr} (h : a ∈ items) (i : Nat) : ∃ j, Except.ok ⟨dataName j, .addr a, [("item_index", .int j)]⟩ ∈ listSubs i items := by
  induction items generalizing i with
  | nil => simp at h
  | cons b bs ih =>
    simp only [listSubs]
    rcases List.mem_cons.1 h with rfl | h
    · exact ⟨i, by simp⟩
    · obtain ⟨j, hj⟩ := ih h (i + 1); exact ⟨j, by simp [hj]⟩

theorem dictSubs_of_mem {env : Env} {H : Heap} {es : List (Addr × Addr)} {k v : Addr} (h : (k, v) ∈ es) (i : Nat) :
    ∃ j, dictSub env H j k v ∈ dictSubs env H i es := by
  induction es generalizing i with
  | nil => simp at h
  | cons e es ih =>
    obtain ⟨k', v'⟩ := e
    simp only [dictSubs]
    rcases List.mem_cons.1 h with h | h
    · simp at h; obtain ⟨rfl, rfl⟩ := h; exact ⟨i, by simp⟩
    · obtain ⟨j, hj⟩ := ih h (i + 1); exact ⟨j, by simp [hj]⟩

/-- how part `c` is stored: in a node of its own (one in `R`), in the name of a link, or in a vector of numbers -/
inductive PartOk (env : Env) (H : Heap) (W : Rel) (R : NodeId → Prop) (c : Addr) : Prop
  | node (n) : W n c → R n → PartOk env H W R c
  | name (o name kbt) : H[c]? = some o → keySlot env o = .ok (some (name, kbt)) → (utf8Encode name).isSome = true → PartOk env H W R c
  | num (o v) : H[c]? = some o → exactNum o = some v → PartOk env H W R c

theorem Child.node {S : Store} {W : Rel} {m a attrs} (h : Child S W m a attrs) : ∃ t, W t a ∧ Under S m t := by
  obtain ⟨nd, hn, _, h | ⟨t, h1, h2, h⟩⟩ := h
  · exact ⟨m, h, .here⟩
  · exact ⟨t, h, .down .here (.ref hn h1 h2)⟩

theorem Child.part {env : Env} {H : Heap} {S : Store} {W : Rel} {m a attrs} (h : Child S W m a attrs) : PartOk env H W (Under S m) a := by
  obtain ⟨t, h1, h2⟩ := h.node
  exact .node t h1 h2

theorem PartOk.imp {env : Env} {H : Heap} {W : Rel} {R R' : NodeId → Prop} {c : Addr} (h : PartOk env H W R c) (hR : ∀ n, R n → R' n) : PartOk env H W R' c := by
  cases h with
  | node n h1 h2 => exact .node n h1 (hR n h2)
  | name o nm kbt h1 h2 h3 => exact .name o nm kbt h1 h2 h3
  | num o v h1 h2 => exact .num o v h1 h2

theorem Under.inside {S : Store} {n m k : NodeId} (h : Leads S n m) (hu : Under S m k) : Inside S n k := by
  induction hu with
  | here => exact .single h
  | down _ hl ih => exact .tail ih hl

theorem Inside.trans {S : Store} {n m k : NodeId} (h : Inside S n m) (h2 : Inside S m k) : Inside S n k := Relation.TransGen.trans h h2

theorem mapM_mem {α β : Type} {f : α → Option β} {xs : List α} {ys : List β} (h : xs.mapM f = some ys) {x} (hx : x ∈ xs) : ∃ y, f x = some y := by
  induction xs generalizing ys with
  | nil => simp at hx
  | cons a as ih =>
    simp only [List.mapM_cons, Option.bind_eq_bind, Option.bind_eq_some_iff] at h
    obtain ⟨y, h1, zs, h2, _⟩ := h
    rcases List.mem_cons.1 hx with rfl | hx
    · exact ⟨y, h1⟩
    · exact ih h2 hx

theorem castItem_num {H : Heap} {d : DT} {a : Addr} {v : NpVal} (h : castItem H d a = some v) : ∃ o w, H[a]? = some o ∧ exactNum o = some w := by
  unfold castItem at h
  split at h
  · next o ho =>
    simp only [Option.bind_eq_some_iff] at h
    obtain ⟨w, h1, _⟩ := h
    exact ⟨o, w, ho, h1⟩
  · simp at h

theorem expected_none {env : Env} {cl : Cls} (h : (expected env cl).2.fn = .none) : (expected env cl).2.base = "None" := by
  unfold expected at h ⊢
  split
  · next e he =>
    rw [he] at h
    obtain ⟨k, p, hs⟩ := firstStd_mem he
    simp only at h ⊢
    cases k <;> simp [stdReg] at hs <;> obtain ⟨rfl, rfl⟩ := hs <;> simp_all
  · next he => rw [he] at h; simp at h

theorem ObjOk.none_children {env : Env} {o : Obj} (hok : ObjOk env o) (h : (expected env o.cls).2.fn = .none) : o.val.children = [] := by
  have hb := expected_none h
  obtain ⟨cl, v⟩ := o
  have expNat : ∀ {e : Entry} {p}, stdReg cl = some (p, e) → (∀ k, cl ≠ .user k) → e.fn = .none := by
    intro e p h1 h2
    rw [expected_native env h1 h2] at h; exact h
  cases v <;> first
    | rfl
    | (cases cl <;> first
        | (simp [ObjOk, NativeOk] at hok; done)
        | (simp only [ObjOk, UserOk] at hok
           rcases hok with ⟨_, hok⟩
           simp only at hb
           simp [hb] at hok)
        | (have := expNat rfl (by simp); simp at this))

theorem keySlot_atom {env : Env} {o : Obj} {r} (h : keySlot env o = .ok (some r)) : o.val.children = [] := by
  obtain ⟨cl, v⟩ := o
  cases v <;> first | rfl | (simp only [keySlot, reprKey] at h; split at h <;> simp at h)

theorem exactNum_children {o : Obj} {v : NpVal} (h : exactNum o = some v) : o.val.children = [] := by
  have := exactNum_atom h
  cases hv : o.val <;> first | rfl | (rw [hv] at this; simp [Val.isAtom] at this)

/-- the parts of a stored list or tuple are stored -/
theorem list_parts {env : Env} {base : Nat} {H : Heap} {S : Store} {W : Rel} {n a : Nat} (h : NodeOk env base H S W n a) {c : Cls} {rows : List Addr}
    (ho : H[a]? = some ⟨c, .seq rows⟩) (hf : (expected env c).2.fn = .listlike) : ∀ r ∈ rows, PartOk env H W (Inside S n) r := by
  obtain ⟨o', nd, od, subs, h1, h2, h3, h4, h5⟩ := h
  rw [ho] at h1; simp at h1; subst h1
  intro r hr
  simp only [hf] at h4
  cases h4 with
  | seqNil hv => simp at hv; subst hv; simp at hr
  | seqVec hv _ hm _ =>
    simp at hv; subst hv
    obtain ⟨y, hy⟩ := mapM_mem hm hr
    obtain ⟨p, w, e1, e2⟩ := castItem_num hy
    exact .num p w e1 e2
  | seqItems hv =>
    simp at hv; subst hv
    obtain ⟨ls, hb, hk⟩ := h5
    obtain ⟨j, hj⟩ := listSubs_of_mem hr 0
    obtain ⟨_, b, m, e0, e1, e2⟩ := hk.mem hj
    simp only [SubAt] at e1
    subst e1
    exact e2.part.imp fun k hk => hk.inside (.link (Store.links_of h2 hb) e0)
  | _ => simp_all

theorem listlike_of {env : Env} {c : Cls} (h : c = .list ∨ c = .tuple) : (expected env c).2.fn = .listlike := by
  rcases h with rfl | rfl <;> (simp only [expected, Cls.mro]; decide)

/-- the elements of a stored nested list are stored -/
theorem nested_parts {env : Env} {base : Nat} {H : Heap} {S : Store} {W : Rel} {n : NodeId} (hall : ∀ n b, W n b → NodeOk env base H S W n b) :
    ∀ {sh : List Nat} {ls : List Leaf} {p : Addr}, Nested base H .list sh ls p → PartOk env H W (Inside S n) p →
      ∀ a, Leaf.addr a ∈ ls → PartOk env H W (Inside S n) a := by
  intro sh
  induction sh with
  | nil =>
    rintro ls p ⟨l, rfl, hl⟩ hp a ha
    simp at ha; subst ha
    simp only [LeafAt] at hl
    subst hl; exact hp
  | cons k sh ih =>
    rintro ls p ⟨_, rows, lss, h1, h2, rfl, h4⟩ hp a ha
    obtain ⟨l, hl, hal⟩ := List.mem_flatten.1 ha
    obtain ⟨r, hr, hn⟩ := h4.right hl
    refine ih hn ?_ a hal
    cases hp with
    | node t hw hin => exact (list_parts (hall t p hw) h1 (listlike_of (.inl rfl)) r hr).imp fun k hk => hin.trans hk
    | name o nm kbt g1 g2 g3 =>
      rw [h1] at g1; cases g1
      have := keySlot_atom g2
      simp only [Val.children] at this
      subst this; simp at hr
    | num o v g1 g2 =>
      rw [h1] at g1; cases g1
      have := exactNum_children g2
      simp only [Val.children] at this
      subst this; simp at hr

theorem nestSubs_of_mem {sh : List Nat} {a : Leaf} : ∀ {k : Nat} {ls : List Leaf}, ls.length = k * shSize sh → a ∈ ls → ∀ i, ∃ j row,
    Except.ok ⟨dataName j, .nest .list sh row, [("item_index", .int j)]⟩ ∈ nestSubs sh i k ls ∧ a ∈ row := by
  intro k
  induction k with
  | zero => intro ls hl ha; simp at hl; subst hl; simp at ha
  | succ k ih =>
    intro ls hl ha i
    rw [← List.take_append_drop (shSize sh) ls] at ha
    rcases List.mem_append.1 ha with ha | ha
    · exact ⟨i, _, by simp [nestSubs], ha⟩
    · obtain ⟨j, row, h1, h2⟩ := ih (ls := ls.drop (shSize sh)) (by rw [List.length_drop, hl, Nat.succ_mul]; omega) ha (i + 1)
      exact ⟨j, row, by simp [nestSubs, h1], h2⟩

/-- object `o` is not a 0-dimensional array holding a sequence or array.  Of such an array only the items of the sequence are stored
(load_numpy.py:112-116, `tolist` gives the sequence itself). -/
def NotBoxed (H : Heap) (o : Obj) : Prop := ∀ c, o.val = .oarr [] [c] → ∃ p : Obj, H[c]? = some p ∧ p.val.noDims = true

def Val.isOarr : Val → Bool
  | .oarr .. => true
  | _ => false

theorem NotBoxed.of_not {H : Heap} {o : Obj} (h : o.val.isOarr = false) : NotBoxed H o := fun c hc => by rw [hc] at h; simp [Val.isOarr] at h

theorem NotBoxed.mono {H H' : Heap} {o : Obj} (h : NotBoxed H o) (hp : H <+: H') : NotBoxed H' o := fun c hc =>
  let ⟨p, h1, h2⟩ := h c hc
  ⟨p, getElem?_prefix hp h1, h2⟩

/-- the parts of a stored object are stored -/
theorem NodeOk.parts {env : Env} {base : Nat} {H : Heap} {S : Store} {W : Rel} {n a : Nat} (hall : ∀ n b, W n b → NodeOk env base H S W n b)
    (h : NodeOk env base H S W n a) {o : Obj} (ho : H[a]? = some o) (hok : ObjOk env o) (hbox : NotBoxed H o) : ∀ c ∈ o.val.children, PartOk env H W (Inside S n) c := by
  obtain ⟨o', nd, od, subs, h1, h2, h3, h4, h5⟩ := h
  rw [ho] at h1; simp at h1; subst h1
  intro c hc
  generalize hfn : (expected env o.cls).2.fn = fn at h4
  cases h4 with
  | intBig hv => rw [hv] at hc; simp [Val.children] at hc
  | int hv => rw [hv] at hc; simp [Val.children] at hc
  | bool hv => rw [hv] at hc; simp [Val.children] at hc
  | float hv => rw [hv] at hc; simp [Val.children] at hc
  | cplx hv => rw [hv] at hc; simp [Val.children] at hc
  | none => rw [hok.none_children hfn] at hc; simp at hc
  | str hv => rw [hv] at hc; simp [Val.children] at hc
  | bytes hv => rw [hv] at hc; simp [Val.children] at hc
  | np hv => rw [hv] at hc; simp [Val.children] at hc
  | arr hv => rw [hv] at hc; simp [Val.children] at hc
  | pickled hv => rw [hv] at hc; simp [Val.children] at hc
  | seqNil hv => rw [hv] at hc; simp [Val.children] at hc
  | setNil hv => rw [hv] at hc; simp [Val.children] at hc
  | seqVec hv _ hm _ =>
    rw [hv] at hc
    obtain ⟨y, hy⟩ := mapM_mem hm hc
    obtain ⟨p, w, e1, e2⟩ := castItem_num hy
    exact .num p w e1 e2
  | setVec hv _ hm _ =>
    rw [hv] at hc
    obtain ⟨y, hy⟩ := mapM_mem hm hc
    obtain ⟨p, w, e1, e2⟩ := castItem_num hy
    exact .num p w e1 e2
  | seqItems hv =>
    rw [hv] at hc
    obtain ⟨ls, hb, hk⟩ := h5
    obtain ⟨j, hj⟩ := listSubs_of_mem hc 0
    obtain ⟨_, b, m, e0, e1, e2⟩ := hk.mem hj
    simp only [SubAt] at e1
    subst e1
    exact e2.part.imp fun k hk => hk.inside (.link (Store.links_of h2 hb) e0)
  | setItems hv =>
    rw [hv] at hc
    obtain ⟨ls, hb, hk⟩ := h5
    obtain ⟨j, hj⟩ := listSubs_of_mem hc 0
    obtain ⟨_, b, m, e0, e1, e2⟩ := hk.mem hj
    simp only [SubAt] at e1
    subst e1
    exact e2.part.imp fun k hk => hk.inside (.link (Store.links_of h2 hb) e0)
  | sstr hv => rw [hv] at hc; simp [Val.children] at hc
  | masked hv => rw [hv] at hc; simp [Val.children] at hc
  | rowsNil hr =>
    cases hr with
    | str hv => rw [hv] at hc; simp [Val.children] at hc
    | obj hv =>
      obtain ⟨cl, v⟩ := o
      simp only at hv; subst hv
      cases cl <;> simp [ObjOk, NativeOk, UserOk] at hok
  | rows hr _ hl =>
    cases hr with
    | str hv => rw [hv] at hc; simp [Val.children] at hc
    | obj hv =>
      rw [hv] at hc
      simp only [Val.children] at hc
      obtain ⟨ls, hb, hk⟩ := h5
      obtain ⟨j, row, hj, hrow⟩ := nestSubs_of_mem hl (List.mem_map_of_mem (f := Leaf.addr) hc) 0
      obtain ⟨_, b, m, e0, e1, e2⟩ := hk.mem hj
      exact nested_parts hall e1 (e2.part.imp fun k hk => hk.inside (.link (Store.links_of h2 hb) e0)) c hrow
  | oseq hl _ hs =>
    cases hl with
    | zero hv h6 _ =>
      obtain ⟨p, h7, h8⟩ := hbox _ hv
      rw [h6] at h7; cases h7
      simp [Val.noDims] at h8
    | one hv =>
      rw [hv] at hc
      simp only [Val.children] at hc
      cases hs with
      | nil h => subst h; simp at hc
      | vec _ hm _ =>
        obtain ⟨y, hy⟩ := mapM_mem hm hc
        obtain ⟨p, w, e1, e2⟩ := castItem_num hy
        exact .num p w e1 e2
      | items =>
        obtain ⟨ls, hb, hk⟩ := h5
        obtain ⟨j, hj⟩ := listSubs_of_mem hc 0
        obtain ⟨_, b, m, e0, e1, e2⟩ := hk.mem hj
        simp only [SubAt] at e1
        subst e1
        exact e2.part.imp fun k hk => hk.inside (.link (Store.links_of h2 hb) e0)
  | oone hv =>
    rw [hv] at hc
    simp only [Val.children, List.mem_singleton] at hc
    subst hc
    obtain ⟨ls, hb, hk⟩ := h5
    obtain ⟨_, b, m, e0, e1, e2⟩ := hk.mem (List.mem_singleton.2 rfl)
    simp only [SubAt] at e1
    subst e1
    exact e2.part.imp fun k hk => hk.inside (.link (Store.links_of h2 hb) e0)
  | sparse hv =>
    rw [hv] at hc
    simp only [Val.children, List.mem_cons, List.not_mem_nil, or_false] at hc
    obtain ⟨ls, hb, hk⟩ := h5
    rcases hc with rfl | rfl | rfl
    · obtain ⟨_, b, m, e0, e1, e2⟩ := hk.mem (.head _)
      simp only [SubAt] at e1
      subst e1
      exact e2.part.imp fun k hk => hk.inside (.link (Store.links_of h2 hb) e0)
    · obtain ⟨_, b, m, e0, e1, e2⟩ := hk.mem (.tail _ (.head _))
      simp only [SubAt] at e1
      subst e1
      exact e2.part.imp fun k hk => hk.inside (.link (Store.links_of h2 hb) e0)
    · obtain ⟨_, b, m, e0, e1, e2⟩ := hk.mem (.tail _ (.tail _ (.head _)))
      simp only [SubAt] at e1
      subst e1
      exact e2.part.imp fun k hk => hk.inside (.link (Store.links_of h2 hb) e0)
  | dict hv =>
    rw [hv] at hc
    simp only [Val.children, List.mem_flatMap] at hc
    obtain ⟨⟨k, v⟩, hkv, hc⟩ := hc
    obtain ⟨ls, hb, hk⟩ := h5
    obtain ⟨j, hj⟩ := dictSubs_of_mem (env := env) (H := H) hkv 0
    obtain ⟨sb, hsb⟩ := hk.ok _ hj
    rw [hsb] at hj
    obtain ⟨e0, b, m, el, e1, e2⟩ := hk.mem hj
    unfold dictSub at hsb
    split at hsb
    · simp at hsb
    · next q hq =>
      split at hsb
      · simp at hsb
      · next name kbt hs =>
        simp only [Except.ok.injEq] at hsb; subst hsb
        simp only [SubAt] at e1; subst e1
        simp only [List.mem_cons, List.not_mem_nil, or_false] at hc
        rcases hc with rfl | rfl
        · exact .name q name kbt hq hs e0
        · exact e2.part.imp fun k hk => hk.inside (.link (Store.links_of h2 hb) el)
      · simp only [Except.ok.injEq] at hsb; subst hsb
        simp only [SubAt] at e1
        obtain ⟨_, hp⟩ := e1
        -- the tuple of key and value
        obtain ⟨t, ht, hu⟩ := e2.node
        have hin := hu.inside (.link (Store.links_of h2 hb) el)
        exact (list_parts (hall t b ht) hp (listlike_of (.inr rfl)) c hc).imp fun k hk => hin.trans hk

variable {P : Nat → Prop}

theorem GoodHeap.notBoxed {env : Env} {H H' : Heap} (h : GoodHeap P env H) (hp : H <+: H') {a : Addr} {o : Obj} (ho : H[a]? = some o) : NotBoxed H' o := by
  refine NotBoxed.mono ?_ hp
  intro c hv
  exact (h.oarrs a o _ _ ho hv).1 c (by simp)

/-- every part of the object is stored somewhere -/
theorem GoodDump.partOk {a : DumpArgs} {s s' : Session} (h : GoodDump P a s s') {H' : Heap} {W : Rel} {m : NodeId}
    (hd : Dumped a.env a.heap H' s'.store W m a.obj) {c : Addr} (hr : Reach a.heap a.obj c) : PartOk a.env H' W (fun _ => True) c := by
  have hpre := hd.pre
  induction hr with
  | here => exact hd.root.part.imp fun _ _ => trivial
  | @into c d o _ ho hm ih =>
    have ho' := getElem?_prefix hpre ho
    cases ih with
    | node n hw => exact ((hd.nodes n c hw).parts hd.nodes ho' (h.graph.cls c o ho).2 (h.graph.notBoxed hpre ho) d hm).imp fun _ _ => trivial
    | name q nm kbt hq hk _ =>
      rw [ho'] at hq; simp at hq; subst hq
      rw [keySlot_atom hk] at hm; simp at hm
    | num q v hq hv =>
      rw [ho'] at hq; simp at hq; subst hq
      rw [exactNum_children hv] at hm; simp at hm

/-- Every part of the object was accepted by the function responsible for it, or is in the name of a link,
or in a vector of numbers. -/
theorem GoodDump.part {a : DumpArgs} {s s' : Session} (h : GoodDump P a s s') {c : Addr} {o : Obj} (hr : Reach a.heap a.obj c) (ho : a.heap[c]? = some o) :
    (∃ H' at' od subs, a.heap <+: H' ∧ Head a.env H' (expected a.env o.cls).2.fn o at' od subs) ∨
    (∃ name kbt, keySlot a.env o = .ok (some (name, kbt)) ∧ (utf8Encode name).isSome = true) ∨ ∃ v, exactNum o = some v := by
  obtain ⟨H', W, g, T, m, N, M', hs⟩ := h.stored
  have hd := hs.dumped
  have hpre := hd.pre
  have ho' := getElem?_prefix hpre ho
  cases h.partOk hd hr with
  | node n hw =>
    obtain ⟨q, nd, od, subs, h1, _, _, h4, _⟩ := hd.nodes n c hw
    rw [ho'] at h1; simp at h1; subst h1
    exact .inl ⟨H', nd.attrs, od, subs, hpre, h4⟩
  | name q nm kbt hq hk hn =>
    rw [ho'] at hq; simp at hq; subst hq
    exact .inr (.inl ⟨nm, kbt, hk, hn⟩)
  | num q v hq hv =>
    rw [ho'] at hq; simp at hq; subst hq
    exact .inr (.inr ⟨v, hv⟩)

end Verif
