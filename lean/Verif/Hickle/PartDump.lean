import Verif.Hickle.StepSafe
import Verif.Hickle.RoundTrip
/-!
# What a dump leaves in the file, whatever stopped it

`Draft` describes a node a dump has made, from the moment it exists; `dumpNode_part` says that after every run of `_dump`, with exceptions
coming anywhere, all nodes made so far are drafts.
-/
namespace Verif

/-- what a node was made for: the object, its sub items (as far as they are known) and the attributes its container gives it -/
structure Rec where
  addr : Addr
  subs : Subs
  attrs : Attrs

/-- the nodes a dump has made -/
abbrev Recs := NodeId → Rec → Prop

/-- the attributes a container gives its items -/
def IdxKey (k : String) : Prop := k = "item_index" ∨ k = "key_idx" ∨ k = "key_base_type"

/-- the links of a group are some of the sub items -/
def LinksOk (base : Nat) (K : Heap) (W : Recs) (subs : Subs) (b : Body) : Prop :=
  ∀ ls, b = .group ls → ∀ p ∈ ls, ∃ sb x subs', Except.ok sb ∈ subs ∧ sb.name = p.1 ∧ (utf8Encode p.1).isSome = true ∧
    SubAt base K sb.obj x ∧ W p.2 ⟨x, subs', sb.attrs⟩

/-- the create function made a dataset or a group -/
def BodyIs : Option Data → Body → Prop
  | some d, b => b = .dset d
  | none, b => ∃ ls, b = .group ls

/-- a dataset that means something without a type is the pickled object -/
def Raw (o : Obj) (b : Body) : Prop :=
  (∀ t, b ≠ .dset (.ref t)) ∧ ∀ cl st, b = .dset (.pickleObj cl st) → o = ⟨cl, .opaque st true⟩

/-- the node of an object, finished or not: a reference to a node of the object, written or not, a node without a type, or one with a type and the content
the create function gave it and some of the sub items -/
inductive Kind (env : Env) (base : Nat) (K : Heap) (S : Store) (W : Recs) (r : Rec) (nd : Node) : Prop
  | ref {t r'} : nd.body = .dset (.ref t) → Assoc.get? nd.attrs "type" = none → W t r' → r'.addr = r.addr → Kind env base K S W r nd
  | blank : nd.body = .dset .nullRef → Assoc.get? nd.attrs "type" = none → Kind env base K S W r nd
  | bare {o} : K[r.addr]? = some o → Assoc.get? nd.attrs "type" = none → Raw o nd.body → Kind env base K S W r nd
  | typed {o e od K0} : K[r.addr]? = some o → Assoc.get? nd.attrs "type" = some (.ref e) → EntryOk env S o.cls e → K0 <+: K →
      Head env K0 (expected env o.cls).2.fn o nd.attrs od r.subs → BodyIs od nd.body → LinksOk base K W r.subs nd.body → Kind env base K S W r nd

/-- node `n` is a draft of what `r` says -/
def Draft (env : Env) (base : Nat) (K : Heap) (S : Store) (W : Recs) (n : NodeId) (r : Rec) : Prop :=
  ∃ nd, S[n]? = some nd ∧ Assoc.get? nd.attrs "base_type" = none ∧
    (∀ k v, IdxKey k → Assoc.get? nd.attrs k = some v → (k, v) ∈ r.attrs) ∧ Kind env base K S W r nd

theorem LinksOk.mono {base : Nat} {K K' : Heap} {W W' : Recs} {subs b} (hp : K <+: K') (hW : ∀ n r, W n r → W' n r) (h : LinksOk base K W subs b) :
    LinksOk base K' W' subs b := fun ls hl p hm => by
  obtain ⟨sb, x, subs', h1, h2, h3, h4, h5⟩ := h ls hl p hm
  exact ⟨sb, x, subs', h1, h2, h3, h4.mono hp, hW _ _ h5⟩

theorem Kind.mono {env : Env} {base : Nat} {K K' : Heap} {S S' : Store} {W W' : Recs} {r nd} (hp : K <+: K')
    (hx : ∀ cls e, EntryOk env S cls e → EntryOk env S' cls e) (hW : ∀ n r, W n r → W' n r) (h : Kind env base K S W r nd) : Kind env base K' S' W' r nd := by
  cases h with
  | ref h1 h2 h3 h4 => exact .ref h1 h2 (hW _ _ h3) h4
  | blank h1 h2 => exact .blank h1 h2
  | bare h1 h2 h3 => exact .bare (getElem?_prefix hp h1) h2 h3
  | typed h1 h2 h3 h4 h5 h6 h7 => exact .typed (getElem?_prefix hp h1) h2 (hx _ _ h3) (h4.trans hp) h5 h6 (h7.mono hp hW)

theorem Draft.mono {env : Env} {base : Nat} {K K' : Heap} {S S' : Store} {W W' : Recs} {n r} (hp : K <+: K')
    (hx : ∀ cls e, EntryOk env S cls e → EntryOk env S' cls e) (hn : ∀ nd, S[n]? = some nd → S'[n]? = some nd) (hW : ∀ n r, W n r → W' n r)
    (h : Draft env base K S W n r) : Draft env base K' S' W' n r := by
  obtain ⟨nd, h1, h2, h3, h4⟩ := h
  exact ⟨nd, hn _ h1, h2, h3, h4.mono hp hx hW⟩

/-- attributes of the containers are not the ones the type and the content are found by -/
theorem IdxKey.ne {k : String} (h : IdxKey k) : k ≠ "base_type" ∧ k ≠ "type" ∧ k ≠ "str_type" ∧ k ≠ "num_items" ∧ k ≠ "np_dtype" := by
  rcases h with rfl | rfl | rfl <;> decide

/-- setting one of the attributes given by the container -/
theorem Draft.attr {env : Env} {base : Nat} {K : Heap} {S : Store} {W : Recs} {n r k v} (hk : IdxKey k) (hv : (k, v) ∈ r.attrs)
    (h : Draft env base K S W n r) : Draft env base K (S.setAttr n k v) W n r := by
  obtain ⟨nd, h1, h2, h3, h4⟩ := h
  obtain ⟨k1, k2, k3, k4, k5⟩ := hk.ne
  refine ⟨_, Store.getElem?_setAttr_self h1 k v, by simp only []; rw [Assoc.get?_put_ne _ _ k1]; exact h2, ?_, ?_⟩
  · intro k' v' hk' hg
    simp only at hg
    by_cases e : k = k'
    · subst e; rw [Assoc.get?_put_self] at hg; simp at hg; subst hg; exact hv
    · rw [Assoc.get?_put_ne _ _ e] at hg; exact h3 k' v' hk' hg
  · cases h4 with
    | ref e1 e2 e3 e4 => exact .ref e1 (by simp only []; rw [Assoc.get?_put_ne _ _ k2]; exact e2) e3 e4
    | blank e1 e2 => exact .blank e1 (by simp only []; rw [Assoc.get?_put_ne _ _ k2]; exact e2)
    | bare e1 e2 e3 => exact .bare e1 (by simp only []; rw [Assoc.get?_put_ne _ _ k2]; exact e2) e3
    | typed e1 e2 e3 e4 e5 e6 e7 =>
      exact .typed e1 (by simp only []; rw [Assoc.get?_put_ne _ _ k2]; exact e2) (e3.setAttr k1) e4
        (e5.attrs (Assoc.get?_put_ne _ _ k3) (Assoc.get?_put_ne _ _ k4) (Assoc.get?_put_ne _ _ k5)) e6 e7

variable {P : Nat → Prop}

/-- What a dump of `obj` of heap `H0` below group `g` leaves: every node it made is a draft, and the node named `data` is one for `obj`. -/
structure Left (env : Env) (H0 : Heap) (g : NodeId) (obj : Addr) (W : Recs) (K : Heap) (S : Store) : Prop extends Temps H0 K where
  draft : ∀ n r, W n r → Draft env H0.length K S W n r
  root : ∀ ls m, S.links g = some ls → (dataName0, m) ∈ ls → ∃ subs, W m ⟨obj, subs, []⟩
  uniq : ∀ n r r', W n r → W n r' → r = r'

/-- invariant of a running dump -/
structure PInv (P : Nat → Prop) (c : DCtx) (H0 : Heap) (g : NodeId) (obj : Addr) (W : Recs) (s : DState) : Prop extends
    Left c.env H0 g obj W s.heap s.store where
  reg : RegInv P s.reg
  tinv : TInv c s
  lt : ∀ n r, W n r → n < s.store.length ∧ n ≠ c.table ∧ n ≠ g
  memo : ∀ a n, Assoc.get? s.memo a = some n → ∃ r, W n r ∧ r.addr = a
  cls : ∀ (a : Addr) (o : Obj), s.heap[a]? = some o → GoodCls P c.env o.cls
  subs : ∀ n r, W n r → SubsOk H0.length s.heap r.subs
  gT : g ≠ c.table
  gS : ∃ nd, s.store[g]? = some nd

/-- where the node of `a` belongs -/
inductive Slot (base : Nat) (g : NodeId) (obj : Addr) (W : Recs) (K : Heap) : NodeId → PyStr → Addr → Attrs → Prop
  | top : Slot base g obj W K g dataName0 obj []
  | sub {p r sb a} : W p r → Except.ok sb ∈ r.subs → SubAt base K sb.obj a → Slot base g obj W K p sb.name a sb.attrs

theorem Slot.mono {base g obj} {W W' : Recs} {K K' : Heap} {p nm a at'} (hW : ∀ n r, W n r → W' n r) (hp : K <+: K')
    (h : Slot base g obj W K p nm a at') : Slot base g obj W' K' p nm a at' := by
  cases h with
  | top => exact .top
  | sub h1 h2 h3 => exact .sub (hW _ _ h1) h2 (h3.mono hp)

section
variable {c : DCtx} {H0 : Heap} {g : NodeId} {obj : Addr} {W : Recs} {s : DState}

theorem Slot.attrsOk (h : PInv P c H0 g obj W s) {p nm a at'} (hs : Slot H0.length g obj W s.heap p nm a at') : AttrsOk at' := by
  cases hs with
  | top => exact ⟨by simp, by simp⟩
  | sub h1 h2 h3 => exact (h.subs _ _ h1).attrs _ h2

theorem Slot.neTable (h : PInv P c H0 g obj W s) {p nm a at'} (hs : Slot H0.length g obj W s.heap p nm a at') : p ≠ c.table := by
  cases hs with
  | top => exact h.gT
  | sub h1 h2 h3 => exact (h.lt _ _ h1).2.1

/-- one more node -/
def Recs.add (W : Recs) (n : NodeId) (r : Rec) : Recs := fun m q => W m q ∨ (m = n ∧ q = r)

theorem Recs.le_add (W : Recs) (n : NodeId) (r : Rec) : ∀ m q, W m q → W.add n r m q := fun _ _ h => .inl h

/-- a node is made in its place -/
theorem PInv.create (h : PInv P c H0 g obj W s) {p nm a at'} (hs : Slot H0.length g obj W s.heap p nm a at') {n body at0 s1}
    (hc : Created s p nm n body at0 s1) (hb : Assoc.get? at0 "base_type" = none) (hi : ∀ k, IdxKey k → Assoc.get? at0 k = none) {subs : Subs}
    (hk : Kind c.env H0.length s.heap s1.store W ⟨a, subs, at'⟩ ⟨nm, at0, body⟩) (hsub : SubsOk H0.length s.heap subs) (hbody : ∀ ls, body = .group ls → ls = []) :
    PInv P c H0 g obj (W.add n ⟨a, subs, at'⟩) s1 := by
  obtain ⟨pnd, ls, f1, f2, f3, f4, f5, f6, f7, f8⟩ := hc.facts
  have hs1 : s1 = { s with store := s1.store } := by obtain ⟨_, _, e, _⟩ := hc; exact e
  have hname := hc.name
  have hpT := hs.neTable h
  have hnT : n ≠ c.table := by have := h.tinv.table_lt; omega
  have hng : n ≠ g := by obtain ⟨nd, e⟩ := h.gS; have := lt_of_getElem? e; omega
  have hT1 : TInv c s1 := h.tinv.ext f7 (by rw [hs1]) (by rw [hs1]) (Store.links_congr (f6 _ (Ne.symm hpT) (Ne.symm hnT)))
  have hheap : s1.heap = s.heap := by rw [hs1]
  have hlt : s.store.length < s1.store.length := by have := lt_of_getElem? f5; omega
  have hx : ∀ cls e, EntryOk c.env s.store cls e → EntryOk c.env s1.store cls e := fun _ _ h => h.ext f7
  have hfresh : ∀ m q, W m q → m ≠ n := fun m q hm => by have := (h.lt m q hm).1; omega
  refine ⟨⟨⟨by rw [hheap]; exact h.pre, by rw [hheap]; exact h.temps⟩, ?_, ?_, ?_⟩, by rw [hs1]; exact h.reg, hT1, ?_, ?_, by rw [hheap]; exact h.cls, ?_, h.gT, ?_⟩
  · rw [hheap]
    rintro m q (hm | ⟨rfl, rfl⟩)
    · have hmn := hfresh m q hm
      by_cases hmp : m = p
      · subst hmp
        obtain ⟨nd, e1, e2, e3, e4⟩ := h.draft m q hm
        rw [f1] at e1; simp at e1; subst e1
        refine ⟨_, f4, e2, e3, ?_⟩
        cases e4 with
        | ref k1 => rw [f2] at k1; simp at k1
        | blank k1 => rw [f2] at k1; simp at k1
        | bare k1 k2 k3 => exact .bare k1 k2 ⟨by simp, by simp⟩
        | @typed o e od K0 k1 k2 k3 k4 k5 k6 k7 =>
          refine .typed k1 k2 (hx _ _ k3) k4 k5 (od := od) ?_ ?_
          · cases od with
            | some d => rw [show pnd.body = _ from k6] at f2; simp at f2
            | none => exact ⟨_, rfl⟩
          · intro ls' hl' x hx'
            simp at hl'; subst hl'
            rcases List.mem_append.1 hx' with hx' | hx'
            · obtain ⟨sb, y, subs', l1, l2, l3, l4, l5⟩ := k7 ls f2 x hx'
              exact ⟨sb, y, subs', l1, l2, l3, l4, .inl l5⟩
            · simp at hx'; subst hx'
              cases hs with
              | top => exact absurd rfl (h.lt _ _ hm).2.2
              | @sub _ r sb _ l1 l2 l3 =>
                obtain rfl := h.uniq _ _ _ l1 hm
                exact ⟨sb, a, subs, l2, rfl, hname, l3, .inr ⟨rfl, rfl⟩⟩
      · exact (h.draft m q hm).mono List.prefix_rfl hx (fun nd e => by rw [f6 m hmp hmn]; exact e) (Recs.le_add _ _ _)
    · refine ⟨_, f5, hb, fun k v hk' hv => ?_, hk.mono List.prefix_rfl (fun _ _ h => h) (Recs.le_add _ _ _)⟩
      simp only at hv; rw [hi k hk'] at hv; simp at hv
  · intro ls' m hl hm
    by_cases hgp : g = p
    · subst hgp
      rw [Store.links_of f4 rfl] at hl; simp at hl; subst hl
      rcases List.mem_append.1 hm with hm | hm
      · obtain ⟨subs', e⟩ := h.root ls m (Store.links_of f1 f2) hm
        exact ⟨subs', .inl e⟩
      · simp at hm
        obtain ⟨e1, rfl⟩ := hm
        cases hs with
        | top => exact ⟨subs, .inr ⟨rfl, rfl⟩⟩
        | sub l1 l2 l3 => exact absurd rfl (h.lt _ _ l1).2.2
    · rw [Store.links_congr (f6 g hgp (Ne.symm hng))] at hl
      obtain ⟨subs', e⟩ := h.root ls' m hl hm
      exact ⟨subs', .inl e⟩
  · rintro m q q' (h1 | ⟨rfl, rfl⟩) (h2 | ⟨h2, rfl⟩)
    · exact h.uniq m q q' h1 h2
    · exact absurd h2 (hfresh m q h1)
    · exact absurd rfl (hfresh _ q' h2)
    · rfl
  · rintro m q (h1 | ⟨rfl, rfl⟩)
    · obtain ⟨k1, k2⟩ := h.lt m q h1
      exact ⟨by omega, k2⟩
    · exact ⟨by omega, hnT, hng⟩
  · intro b m hm
    rw [hs1] at hm
    obtain ⟨q, k1, k2⟩ := h.memo b m hm
    exact ⟨q, .inl k1, k2⟩
  · rw [hheap]
    rintro m q (h1 | ⟨rfl, rfl⟩)
    · exact h.subs m q h1
    · exact hsub
  · obtain ⟨nd, e⟩ := h.gS
    obtain ⟨nd', e', _⟩ := f7 _ _ e
    exact ⟨nd', e'⟩

theorem PInv.reg' (h : PInv P c H0 g obj W s) {r' : Registry} (hr : RegInv P r') : PInv P c H0 g obj W { s with reg := r' } where
  toLeft := h.toLeft
  reg := hr
  tinv := h.tinv.ext (SExt.refl _) rfl rfl rfl
  lt := h.lt
  memo := h.memo
  cls := h.cls
  subs := h.subs
  gT := h.gT
  gS := h.gS

theorem PInv.memoise (h : PInv P c H0 g obj W s) {n r} (hw : W n r) : PInv P c H0 g obj W { s with memo := Assoc.put s.memo r.addr n } where
  toLeft := h.toLeft
  reg := h.reg
  tinv := h.tinv.ext (SExt.refl _) rfl rfl rfl
  lt := h.lt
  memo a m hm := by
    simp only at hm
    by_cases e : r.addr = a
    · subst e; rw [Assoc.get?_put_self] at hm; simp at hm; subst hm; exact ⟨r, hw, rfl⟩
    · rw [Assoc.get?_put_ne _ _ e] at hm; exact h.memo a m hm
  cls := h.cls
  subs := h.subs
  gT := h.gT
  gS := h.gS

/-- setting one of the attributes given by the container -/
theorem PInv.attr (h : PInv P c H0 g obj W s) {n r k v} (hw : W n r) (hk : IdxKey k) (hv : (k, v) ∈ r.attrs) :
    PInv P c H0 g obj W { s with store := s.store.setAttr n k v } where
  pre := h.pre
  temps := h.temps
  draft m q hm := by
    by_cases e : m = n
    · subst e
      obtain rfl := h.uniq _ _ _ hm hw
      exact (h.draft m q hm).attr hk hv
    · exact (h.draft m q hm).mono List.prefix_rfl (fun _ _ h => h.setAttr hk.ne.1) (fun nd e' => by rw [Store.getElem?_setAttr_ne e]; exact e') fun _ _ h => h
  root ls m hl := by
    simp only [Store.links_setAttr] at hl
    exact h.root ls m hl
  reg := h.reg
  tinv := h.tinv.setAttr hk.ne.1
  uniq := h.uniq
  lt m q hm := by
    obtain ⟨k1, k2⟩ := h.lt m q hm
    exact ⟨by simp only [Store.length_setAttr]; exact k1, k2⟩
  memo := h.memo
  cls := h.cls
  subs := h.subs
  gT := h.gT
  gS := by
    obtain ⟨nd, e⟩ := h.gS
    obtain ⟨nd', e', _⟩ := Store.body_setAttr (n := n) e k v
    exact ⟨nd', e'⟩

/-- the type of a node is stored: the types table and the node change -/
theorem Left.typed (h : Left c.env H0 g obj W s.heap s.store) (hu : ∀ n r r', W n r → W n r' → r = r') (hl : ∀ n r, W n r → n ≠ c.table ∧ n ≠ g) (hg : g ≠ c.table)
    {n r o at2 od} {nd : Node} (hw : W n r) (ho : s.heap[r.addr]? = some o)
    (hi : ∀ k v, IdxKey k → Assoc.get? nd.attrs k = some v → (k, v) ∈ r.attrs) (hb : Assoc.get? nd.attrs "base_type" = none)
    (hd : Head c.env s.heap (expected c.env o.cls).2.fn o nd.attrs od r.subs) (hbo : nd.body = bodyOf od)
    {S1 : Store} (hx : ∀ cls e, EntryOk c.env s.store cls e → EntryOk c.env S1 cls e)
    (h1 : S1[n]? = some { nd with attrs := at2 }) (h2 : ∀ k, k ≠ "type" → Assoc.get? at2 k = Assoc.get? nd.attrs k)
    {e : NodeId} (h3 : Assoc.get? at2 "type" = some (.ref e)) (h4 : EntryOk c.env S1 o.cls e)
    (h5 : ∀ m nd, m ≠ c.table → m ≠ n → s.store[m]? = some nd → S1[m]? = some nd)
    (h6 : ∀ ls, S1.links g = some ls → s.store.links g = some ls) : Left c.env H0 g obj W s.heap S1 where
  toTemps := h.toTemps
  draft m q hm := by
    by_cases e' : m = n
    · subst e'
      obtain rfl := hu _ _ _ hm hw
      refine ⟨_, h1, by simp only []; rw [h2 _ (by decide)]; exact hb, ?_, ?_⟩
      · intro k v hk hv
        simp only at hv
        rw [h2 k hk.ne.2.1] at hv
        exact hi k v hk hv
      · refine .typed ho h3 h4 List.prefix_rfl (hd.attrs (h2 _ (by decide)) (h2 _ (by decide)) (h2 _ (by decide))) ?_ ?_
        · cases od with
          | some d => exact hbo
          | none => exact ⟨_, hbo⟩
        · intro ls hls p hp
          simp only [hbo] at hls
          cases od with
          | some d => simp [bodyOf] at hls
          | none => simp [bodyOf] at hls; subst hls; simp at hp
    · exact (h.draft m q hm).mono List.prefix_rfl hx (fun nd h => h5 m nd (hl m q hm).1 e' h) fun _ _ h => h
  root ls m hls := h.root ls m (h6 ls hls)
  uniq := hu

/-- an object for a sub item is made -/
theorem PInv.sub (h : PInv P c H0 g obj W s) {n r sb} (hw : W n r) (hs : Except.ok sb ∈ r.subs) :
    ∃ b s0, subAddr sb.obj s = (.ok b, s0) ∧ PInv P c H0 g obj W s0 ∧ SubAt H0.length s0.heap sb.obj b := by
  have h0 : DInv P c H0.length [] [] { s with memo := [] } :=
    { reg := h.reg, tinv := h.tinv.ext (SExt.refl _) rfl rfl rfl, done := by simp, memo := by simp [Assoc.get?]
      memoised := by intro n a o hw; simp [W2] at hw
      uniq := by intro n a o hw; simp [W2] at hw
      lt := by intro n a hw; simp [W2] at hw
      cls := h.cls, len := h.pre.length_le
      temps := h.temps }
  have key : ∃ b hp, subAddr sb.obj s = (.ok b, { s with heap := hp }) ∧ subAddr sb.obj { s with memo := [] } = (.ok b, { s with memo := [], heap := hp }) := by
    cases sb.obj with
    | addr a => exact ⟨a, s.heap, rfl, rfl⟩
    | pair k v => exact ⟨_, _, rfl, rfl⟩
    | nest cl sh ls => exact ⟨_, _, rfl, rfl⟩
  obtain ⟨b, hp, e1, e2⟩ := key
  have hsub : SubsOk H0.length s.heap [.ok sb] := by
    have := h.subs n r hw
    exact ⟨fun sb' hs' => by simp at hs'; subst hs'; exact this.attrs _ hs,
      fun sb' k v hs' => by simp at hs'; subst hs'; exact this.pairs _ k v hs,
      fun sb' cl sh ls hs' => by simp at hs'; subst hs'; exact this.nests _ cl sh ls hs⟩
  obtain ⟨d1, d2, d3, d4⟩ := h0.sub hsub e2
  refine ⟨b, _, e1, ?_, d4⟩
  simp only at d3
  exact
    { pre := h.pre.trans d3, temps := d1.temps
      draft := fun m q hm => (h.draft m q hm).mono d3 (fun _ _ h => h) (fun _ h => h) fun _ _ h => h
      root := h.root
      reg := h.reg, tinv := h.tinv.ext (SExt.refl _) rfl rfl rfl, uniq := h.uniq, lt := h.lt, memo := h.memo
      cls := d1.cls, subs := fun m q hm => (h.subs m q hm).mono d3, gT := h.gT, gS := h.gS }

end
end Verif

namespace Verif.Prog

variable {P : Nat → Prop} {all : Bool}

section
variable {σ α β : Type} {lk : Lk σ}

theorem wp_and {p : Prog σ α} {Q Q' : Except PyErr α → σ → Prop} : ∀ {s : σ}, wp all lk p Q s → wp all lk p Q' s → wp all lk p (fun r s => Q r s ∧ Q' r s) s := by
  induction p with
  | ret r => exact fun h h' => ⟨h, h'⟩
  | act io x k ih => exact fun h h' ev he => ih _ (h ev he) (h' ev he)
  | look m c b k ih => exact fun h h' ev he => ih _ (h ev he) (h' ev he)

theorem wp_see {f : σ → Prog σ α} {s : σ} {Q : Except PyErr α → σ → Prop} (h1 : wp all lk (f s) Q s) (h2 : ∀ e, Q (.error e) s) :
    wp all lk (view >>= f) Q s := by
  refine wp_bind ?_
  intro ev he
  cases ev with
  | go => exact h1
  | early e => exact h2 e
  | late e => exact h2 e

/-- the first exception ends the program -/
def Fragile : Prog σ α → Prop
  | .ret _ => True
  | .act _ _ k => (∀ e, ∃ e', k (.error e) = .ret (.error e')) ∧ ∀ a, Fragile (k (.ok a))
  | .look _ _ _ k => (∀ e, ∃ e', k (.error e) = .ret (.error e')) ∧ ∀ a, Fragile (k (.ok a))

/-- if such a program succeeds, nothing unusual happened -/
theorem Fragile.ok {p : Prog σ α} (h : Fragile p) : ∀ s : σ, wp all lk p (fun r s' => ∀ a, r = .ok a → run lk p s = (.ok a, s')) s := by
  have bad : ∀ {β : Type} (k : Except PyErr β → Prog σ α) (e : PyErr) (s : σ) (Q : α → σ → Prop), (∃ e', k (.error e) = .ret (.error e')) →
      wp all lk (k (.error e)) (fun r s' => ∀ a, r = .ok a → Q a s') s := by
    rintro β k e s Q ⟨e', h⟩
    rw [h]
    intro a ha; simp at ha
  induction p with
  | ret r => intro s a ha; rw [ha]; rfl
  | act io x k ih =>
    intro s ev he
    cases ev with
    | go =>
      simp only [strike, run]
      rcases x s with ⟨r, s1⟩
      cases r with
      | ok a => exact ih _ (h.2 a) s1
      | error e => exact bad k e _ _ (h.1 e)
    | early e => exact bad k e _ _ (h.1 e)
    | late e => exact bad k e _ _ (h.1 e)
  | look m c b k ih =>
    intro s ev he
    cases ev with
    | go =>
      simp only [strike, run]
      rcases lk m c b s with ⟨r, s1⟩
      cases r with
      | ok a => exact ih _ (h.2 a) s1
      | error e => exact bad k e _ _ (h.1 e)
    | early e => exact bad k e _ _ (h.1 e)
    | late e => exact bad k e _ _ (h.1 e)

theorem Fragile.bind {p : Prog σ α} {f : α → Prog σ β} (h : Fragile p) (hf : ∀ a, Fragile (f a)) : Fragile (p >>= f) := by
  show Fragile (p.bind f)
  induction p with
  | ret r =>
    cases r with
    | ok a => exact hf a
    | error e => trivial
  | act io x k ih =>
    refine ⟨fun e => ?_, fun a => ih _ (h.2 a)⟩
    obtain ⟨e', he⟩ := h.1 e
    exact ⟨e', by simp only [he]; rfl⟩
  | look m c b k ih =>
    refine ⟨fun e => ?_, fun a => ih _ (h.2 a)⟩
    obtain ⟨e', he⟩ := h.1 e
    exact ⟨e', by simp only [he]; rfl⟩

theorem Fragile.op {io : Bool} {x : M σ α} : Fragile (op io x) := ⟨fun e => ⟨e, rfl⟩, fun _ => trivial⟩
theorem Fragile.pure {a : α} : Fragile (pure a : Prog σ α) := trivial
theorem Fragile.throw {e : PyErr} : Fragile (raise e : Prog σ α) := trivial
theorem Fragile.view : Fragile (view : Prog σ σ) := .op

end

/-! ### creating the node of an object -/

/-- so far nothing happened, or a node without type and index was made -/
def Begun (s0 : DState) (p : NodeId) (nm : PyStr) (o : Obj) (s : DState) : Prop :=
  s = s0 ∨ ∃ n body at0, Created s0 p nm n body at0 s ∧ (Untyped at0 ∧ ∀ k, IdxKey k → Assoc.get? at0 k = none) ∧ Raw o body ∧ ∀ ls, body = .group ls → ls = []

section
variable {lk : Lk DState} {s0 : DState} {p : NodeId} {nm : PyStr} {o : Obj}

theorem create_body {S : Store} {p n : NodeId} {nm : PyStr} {b b' : Body} {st : Store} (h : S.create p nm b = .ok (n, st)) :
    ∃ st', S.create p nm b' = .ok (n, st') ∧ ∀ m, m ≠ n → st'[m]? = st[m]? := by
  unfold Store.create at h ⊢
  cases hl : S.links p with
  | none => rw [hl] at h; simp at h
  | some ls =>
    rw [hl] at h
    simp only at h ⊢
    split at h
    · simp at h
    · split at h
      · simp at h
      · split at h
        · simp at h
        · next h1 h2 h3 =>
          simp only [h1, h2, h3, if_false, Bool.false_eq_true]
          simp only [Except.ok.injEq, Prod.mk.injEq] at h
          obtain ⟨rfl, rfl⟩ := h
          refine ⟨_, rfl, fun m hm => ?_⟩
          rcases Nat.lt_or_ge m S.length with hlt | hge
          · rw [List.getElem?_append_left (by simpa using hlt), List.getElem?_append_left (by simpa using hlt)]
          · rw [List.getElem?_eq_none (by simp; omega), List.getElem?_eq_none (by simp; omega)]

/-- a dataset is written -/
theorem created_write {s0 s : DState} {p nm n d0 d at0} (h : Created s0 p nm n (.dset d0) at0 s) :
    Created s0 p nm n (.dset d) at0 { s with store := s.store.write n d } := by
  obtain ⟨st, h1, h2, h3, h4⟩ := h
  obtain ⟨st', g1, g2⟩ := create_body (b' := .dset d) h1
  refine ⟨st', g1, by rw [h2], Store.getElem?_write_self h3 rfl d, fun m hm => ?_⟩
  simp only []
  rw [Store.getElem?_write_ne hm, h4 m hm, g2 m hm]

theorem created_write_group {s0 s : DState} {p nm n ls d at0} (h : Created s0 p nm n (.group ls) at0 s) :
    Created s0 p nm n (.group ls) at0 { s with store := s.store.write n d } := by
  obtain ⟨st, h1, h2, h3, h4⟩ := h
  refine ⟨st, h1, by rw [h2], Store.getElem?_write_group h3 rfl d, fun m hm => ?_⟩
  simp only []
  rw [Store.getElem?_write_ne hm, h4 m hm]

theorem created_again {n body at0 s} (h : Created s0 p nm n body at0 s) {b : Body} {r} : s.store.create p nm b ≠ .ok r := by
  intro e
  obtain ⟨m, st⟩ := r
  obtain ⟨nd, ls, e1, e2, e3, _⟩ := Store.create_ok e
  obtain ⟨nd0, ls0, f1, f2, f3, f4, _⟩ := h.facts
  rw [f4] at e1; simp at e1; subst e1
  simp at e2; subst e2
  exact Assoc.get?_none_of_mem (p := (nm, n)) e3 (by simp)

/-- what is stored is not a reference -/
def RawD (o : Obj) (d : Data) : Prop := (∀ t, d ≠ .ref t) ∧ ∀ cl st, d = .pickleObj cl st → o = ⟨cl, .opaque st true⟩

theorem RawD.blank {d : Data} : RawD o d.blank := by
  cases d <;> exact ⟨by simp [Data.blank], by simp [Data.blank]⟩

theorem mkDset_begun0 {kw d} (hd : RawD o d) : Safe all lk (Begun s0 p nm o) (op true (Verif.mkDset kw p nm d)) (· = s0.store.length) := by
  refine .op fun s hs => ?_
  rcases hm : Verif.mkDset kw p nm d s with ⟨r, s1⟩
  cases r with
  | error e =>
    refine ⟨?_, by simp⟩
    unfold Verif.mkDset at hm
    split at hm
    · simp at hm; rw [← hm.2]; exact hs
    · split at hm
      · simp at hm; rw [← hm.2]; exact hs
      · simp at hm
  | ok n =>
    have hc := (mkDset_ok hm).2
    rcases hs with rfl | ⟨n', body, at0, h1, _⟩
    · refine ⟨.inr ⟨n, _, _, hc, ⟨⟨rfl, rfl⟩, fun _ _ => rfl⟩, ⟨fun t h => hd.1 t (by simpa using h), fun cl st h => hd.2 cl st (by simpa using h)⟩, by simp⟩, ?_⟩
      intro a ha; simp at ha; subst ha
      obtain ⟨_, _, _, _, e, _⟩ := hc.facts
      exact e
    · obtain ⟨st, e, _⟩ := hc
      exact absurd e (created_again h1)

theorem write_begun {d n} (hd : RawD o d) (hn : n = s0.store.length) : Safe all lk (Begun s0 p nm o) (write n d) := by
  refine .op (.modify (fun s hs => ?_) trivial)
  rcases hs with rfl | ⟨n', body, at0, h1, h2, h3, h4⟩
  · left
    have : s.store.write n d = s.store := by
      apply List.ext_getElem?
      intro i
      by_cases hi : i = n
      · subst hi; subst hn; simp [Store.write]
      · exact Store.getElem?_write_ne hi d
    rw [this]
  · right
    obtain ⟨_, _, _, _, e, _⟩ := h1.facts
    obtain rfl : n' = n := by omega
    cases body with
    | dset d0 => exact ⟨n', _, at0, created_write h1, h2, ⟨fun t h => hd.1 t (by simpa using h), fun cl st h => hd.2 cl st (by simpa using h)⟩, by simp⟩
    | group ls => exact ⟨n', _, at0, created_write_group h1, h2, h3, h4⟩

theorem mkDset_begun {kw d} (hd : RawD o d) : Safe all lk (Begun s0 p nm o) (mkDset kw p nm d) (· = s0.store.length) :=
  .bind (mkDset_begun0 .blank) fun _ hn => .bind (write_begun hd hn) fun _ _ => .pure hn

theorem mkGroup_begun : Safe all lk (Begun s0 p nm o) (mkGroup p nm) (· = s0.store.length) := by
  refine .op fun s hs => ?_
  rcases hm : Verif.mkGroup p nm s with ⟨r, s1⟩
  cases r with
  | error e =>
    refine ⟨?_, by simp⟩
    unfold Verif.mkGroup at hm
    split at hm
    · simp at hm; rw [← hm.2]; exact hs
    · simp at hm
  | ok n =>
    have hc := mkGroup_ok hm
    rcases hs with rfl | ⟨n', body, at0, h1, _⟩
    · refine ⟨.inr ⟨n, _, _, hc, ⟨⟨rfl, rfl⟩, fun _ _ => rfl⟩, ⟨by simp, by simp⟩, by simp⟩, ?_⟩
      intro a ha; simp at ha; subst ha
      obtain ⟨_, _, _, _, e, _⟩ := hc.facts
      exact e
    · obtain ⟨st, e, _⟩ := hc
      exact absurd e (created_again h1)

theorem setAttr_begun {n k v} (hn : n = s0.store.length) (hk : k ≠ "type" ∧ k ≠ "base_type" ∧ ¬ IdxKey k) :
    Safe all lk (Begun s0 p nm o) (setAttr n k v) := by
  refine .op fun s hs => ⟨?_, fun _ _ => trivial⟩
  rcases hs with rfl | ⟨n', body, at0, h1, h2, h3, h4⟩
  · left
    simp only [Verif.setAttr, M.modify_apply]
    have : s.store.setAttr n k v = s.store := by
      unfold Store.setAttr
      exact List.modify_eq_self (by omega)
    rw [this]
  · obtain ⟨_, _, _, _, e, _⟩ := h1.facts
    obtain rfl : n' = n := by omega
    refine .inr ⟨n', body, _, h1.attr (x := ()) (k := k) (v := v) rfl, ⟨h2.1.put hk.1 hk.2.1, fun k' hk' => ?_⟩, h3, h4⟩
    rw [Assoc.get?_put_ne _ _ (by rintro rfl; exact hk.2.2 hk')]
    exact h2.2 k' hk'

theorem numItems_ok : "num_items" ≠ "type" ∧ "num_items" ≠ "base_type" ∧ ¬ IdxKey "num_items" := by simp [IdxKey]
theorem strType_ok : "str_type" ≠ "type" ∧ "str_type" ≠ "base_type" ∧ ¬ IdxKey "str_type" := by simp [IdxKey]
theorem npDtype_ok : "np_dtype" ≠ "type" ∧ "np_dtype" ≠ "base_type" ∧ ¬ IdxKey "np_dtype" := by simp [IdxKey]

/-- every data set but references and pickled objects -/
local macro "raw" : term => `(term| ⟨by simp, by simp⟩)

theorem createItems_begun {c h items dt} : Safe all lk (Begun s0 p nm o) (createItems c h items dt p nm) (fun r => r.1 = s0.store.length) := by
  unfold createItems
  split
  · refine .bind (mkDset_begun raw) fun n hn => ?_
    split
    · exact .pure hn
    · exact .throw _
  · exact .throw _
  · exact .bind mkGroup_begun fun n hn => .bind (setAttr_begun hn numItems_ok) fun _ _ => .pure hn

theorem createListlike_begun {c h o'} : Safe all lk (Begun s0 p nm o) (createListlike c h o' p nm) (fun r => r.1 = s0.store.length) := by
  unfold createListlike
  repeat' split
  all_goals first
    | exact .throw _
    | exact createItems_begun
    | exact .bind (mkDset_begun raw) fun n hn => .bind (setAttr_begun hn strType_ok) fun _ _ => .pure hn
    | exact .bind (mkDset_begun raw) fun n hn => .pure hn

theorem createRows_begun {c n sh ls} : Safe all lk (Begun s0 p nm o) (createRows c n sh ls p nm) (fun r => r.1 = s0.store.length) := by
  unfold createRows
  split
  · exact .throw _
  · split
    · exact .bind (mkDset_begun raw) fun n hn => .pure hn
    · exact .bind mkGroup_begun fun n hn => .bind (setAttr_begun hn numItems_ok) fun _ _ => .pure hn

theorem createNpArray_begun {c h o'} : Safe all lk (Begun s0 p nm o) (createNpArray c h o' p nm) (fun r => r.1 = s0.store.length) := by
  have dt : ∀ {x d}, Safe all lk (Begun s0 p nm o) x (fun r => r.1 = s0.store.length) →
      Safe all lk (Begun s0 p nm o) (withDtype x d) (fun r => r.1 = s0.store.length) :=
    fun hx => .bind hx fun r hr => .bind (setAttr_begun hr npDtype_ok) fun _ _ => .pure hr
  unfold createNpArray
  split
  · exact dt (.bind (mkDset_begun raw) fun n hn => .pure hn)
  · refine dt ?_
    unfold createStrings
    repeat' split
    all_goals first
      | exact .throw _
      | exact createRows_begun
      | exact .bind (mkDset_begun raw) fun n hn => .pure hn
  · refine dt ?_
    unfold createObjects
    repeat' split
    all_goals first
      | exact .throw _
      | exact createRows_begun
      | exact createListlike_begun
      | exact .bind mkGroup_begun fun n hn => .pure hn
  · exact .throw _

theorem createPickled_begun {c} : Safe all lk (Begun s0 p nm o) (createPickled c o p nm) (· = s0.store.length) := by
  unfold createPickled
  split
  · next st hv =>
    refine mkDset_begun ⟨by simp, fun cl st' h => ?_⟩
    simp at h
    obtain ⟨h1, h2⟩ := h
    obtain ⟨cl', v⟩ := o
    simp only at hv h1; subst hv h1 h2; rfl
  · exact .throw _
  · exact .throw _

theorem createFn_begun {c fn h} : Safe all lk (Begun s0 p nm o) (createFn c fn h o p nm) (fun r => r.1 = s0.store.length) := by
  have lf : ∀ {x : Prog DState NodeId}, Safe all lk (Begun s0 p nm o) x (· = s0.store.length) → Safe all lk (Begun s0 p nm o) (leaf x) (fun r => r.1 = s0.store.length) :=
    fun h => .bind h fun _ hn => .pure hn
  unfold createFn
  split
  · refine lf ?_
    unfold createScalar
    repeat' split
    all_goals first | exact mkDset_begun raw | exact .throw _
  · exact lf (mkDset_begun raw)
  · exact createListlike_begun
  · unfold createSetlike
    repeat' split
    all_goals first
      | exact .throw _
      | exact createItems_begun
      | exact .bind (mkDset_begun raw) fun n hn => .pure hn
  · unfold createDictlike
    split
    · exact .bind mkGroup_begun fun n hn => .pure hn
    · exact .throw _
  · refine lf ?_
    unfold createNpScalar
    split
    · exact .bind (mkDset_begun raw) fun n hn => .bind (setAttr_begun hn npDtype_ok) fun _ _ => .pure hn
    · exact .throw _
  · exact createNpArray_begun
  · unfold createMasked
    split
    · exact .bind mkGroup_begun fun n hn => .bind (setAttr_begun hn npDtype_ok) fun _ _ => .pure hn
    · exact .throw _
  · unfold createSparse
    split
    · split
      · exact .throw _
      · exact .bind mkGroup_begun fun n hn => .pure hn
    · exact .throw _
  · exact lf createPickled_begun
  all_goals exact .throw _

end

/-! ### the first exception ends the create functions -/

theorem mkDset_fragile {kw p nm d} : Fragile (mkDset kw p nm d) := .bind .op fun _ => .bind .op fun _ => .pure

local macro "fragile" : tactic => `(tactic| all_goals first
  | exact .throw
  | exact .op
  | exact mkDset_fragile
  | exact .pure
  | exact .bind mkDset_fragile fun _ => .pure
  | exact .bind mkDset_fragile fun _ => .bind .op fun _ => .pure
  | exact .bind .op fun _ => .pure
  | exact .bind .op fun _ => .bind .op fun _ => .pure)

theorem createItems_fragile {c h items dt p nm} : Fragile (createItems c h items dt p nm) := by
  unfold createItems
  split
  · refine .bind mkDset_fragile fun n => ?_
    split
    fragile
  fragile

theorem createListlike_fragile {c h o p nm} : Fragile (createListlike c h o p nm) := by
  unfold createListlike
  repeat' split
  all_goals first | exact createItems_fragile | skip
  fragile

theorem createRows_fragile {c n sh ls p nm} : Fragile (createRows c n sh ls p nm) := by
  unfold createRows
  repeat' split
  fragile

theorem createNpArray_fragile {c h o p nm} : Fragile (createNpArray c h o p nm) := by
  have dt : ∀ {x d}, Fragile x → Fragile (withDtype x d) := fun hx => .bind hx fun r => .bind .op fun _ => .pure
  unfold createNpArray
  split
  · exact dt (.bind mkDset_fragile fun n => .pure)
  · refine dt ?_
    unfold createStrings
    repeat' split
    all_goals first | exact createRows_fragile | skip
    fragile
  · refine dt ?_
    unfold createObjects
    repeat' split
    all_goals first | exact createRows_fragile | exact createListlike_fragile | skip
    fragile
  · exact .throw

theorem createPickled_fragile {c o p nm} : Fragile (createPickled c o p nm) := by
  unfold createPickled
  split
  fragile

theorem createFn_fragile {c fn h o p nm} : Fragile (createFn c fn h o p nm) := by
  have lf : ∀ {x : Prog DState NodeId}, Fragile x → Fragile (leaf x) := fun h => .bind h fun _ => .pure
  unfold createFn
  split
  · refine lf ?_
    unfold createScalar
    repeat' split
    fragile
  · exact lf mkDset_fragile
  · exact createListlike_fragile
  · unfold createSetlike
    repeat' split
    all_goals first | exact createItems_fragile | skip
    fragile
  · unfold createDictlike
    split
    fragile
  · refine lf ?_
    unfold createNpScalar
    split
    fragile
  · exact createNpArray_fragile
  · unfold createMasked
    split
    fragile
  · unfold createSparse
    repeat' split
    fragile
  · exact lf createPickled_fragile
  all_goals exact .throw

theorem typeEntryNode_fragile {c cls b} : Fragile (typeEntryNode c cls b) := by
  unfold typeEntryNode
  refine .bind .view fun s => ?_
  repeat' split
  all_goals first | exact .throw | exact .pure | skip
  refine .bind mkDset_fragile fun e => .bind ?_ fun _ => .bind .op fun _ => .bind .op fun _ => .pure
  unfold baseEntry
  refine .bind .view fun s => ?_
  split
  · exact .pure
  · exact .bind mkDset_fragile fun _ => .bind .op fun _ => .pure

/-! ### storing the type -/

/-- the file grew in the types table only -/
def Tabled (T : NodeId) (S : Store) (H : Heap) (s : DState) : Prop := Grow S.length T T [] S s.store ∧ s.heap = H

section
variable {lk : Lk DState} {c : DCtx} {S : Store} {H : Heap}

theorem mkDset_tabled {kw nm d} : Safe all lk (Tabled c.table S H) (mkDset kw c.table nm d) (S.length ≤ ·) := by
  refine .bind (.op fun s hs => ?_) fun n hn => .bind (Q := fun _ => True) (.op (.modify (fun _ hs => ⟨hs.1.write hn, hs.2⟩) trivial)) fun _ _ => .pure hn
  unfold Verif.mkDset
  split
  · exact ⟨hs, by simp⟩
  · split
    · exact ⟨hs, by simp⟩
    · next n st hc =>
      obtain ⟨_, _, _, _, _, _, _, e1, e2, _⟩ := Store.create_ok hc
      have := hs.1.length
      refine ⟨⟨hs.1.create hc rfl (.inr (.inl rfl)), hs.2⟩, ?_⟩
      intro a ha; simp at ha; omega

theorem setAttr_tabled {n k v} (hn : S.length ≤ n) : Safe all lk (Tabled c.table S H) (setAttr n k v) :=
  .op (.modify (fun _ hs => ⟨hs.1.attr hn, hs.2⟩) trivial)

theorem typeEntryNode_tabled {cls b} : Safe all lk (Tabled c.table S H) (typeEntryNode c cls b) := by
  unfold typeEntryNode
  refine .bind .view fun s _ => ?_
  repeat' split
  all_goals first | exact .throw _ | exact .pure trivial | skip
  refine .bind mkDset_tabled fun e he => .bind (Q := fun _ => True) ?_ fun _ _ => .bind (setAttr_tabled he) fun _ _ =>
    .bind (.op (.modify (Q := fun _ => True) (fun _ hs => ⟨hs.1, hs.2⟩) trivial)) fun _ _ => .pure trivial
  unfold baseEntry
  refine .bind .view fun s _ => ?_
  split
  · exact .pure trivial
  · exact .bind mkDset_tabled fun n _ => .bind (.op (.modify (Q := fun _ => True) (fun _ hs => ⟨hs.1, hs.2⟩) trivial)) fun _ _ => .pure trivial

end

section
variable {c : DCtx} {H0 : Heap} {g : NodeId} {obj : Addr} {W : Recs}

/-- growth in the types table leaves the drafts alone -/
theorem left_tabled {s s' : DState} (h : PInv P c H0 g obj W s) (ht : Tabled c.table s.store s.heap s') : Left c.env H0 g obj W s'.heap s'.store := by
  have hold := ht.1.old rfl
  have hext := ht.1.ext rfl
  rw [ht.2]
  refine ⟨h.toTemps, fun n r hw => (h.draft n r hw).mono List.prefix_rfl (fun _ _ h => h.ext hext) (fun nd hn => ?_) fun _ _ h => h, fun ls m hl hm => ?_, h.uniq⟩
  · obtain ⟨nd', e1, _, e3⟩ := hold n nd hn
    rw [e1, e3 (h.lt n r hw).2.1 (h.lt n r hw).2.1]
  · obtain ⟨nd, e⟩ := h.gS
    obtain ⟨nd', e1, _, e3⟩ := hold g nd e
    have := e3 h.gT h.gT
    subst this
    rw [Store.links_congr (e1.trans e.symm)] at hl
    exact h.root ls m hl hm

theorem run_typeEntryNode {lk : Lk DState} {cls b} : run lk (typeEntryNode c cls b) = Verif.typeEntryNode c cls b := by
  unfold typeEntryNode Verif.typeEntryNode
  simp only [run_bind, run_view]
  congr 1; funext s
  cases Assoc.get? s.tlinks cls with
  | some e => rfl
  | none =>
    simp only []
    split
    · rfl
    · split
      · rfl
      · cases s.store.links c.table with
        | none => rfl
        | some ls => simp only [run_bind, run_mkDset, run_baseEntry, run_setAttr, run_op, run_pure]

/-- what holds when a part of the dump is over -/
def After {α : Type} (P : Nat → Prop) (c : DCtx) (H0 : Heap) (g : NodeId) (obj : Addr) (W : Recs) (Q : α → Recs → DState → Prop) : Except PyErr α → DState → Prop
  | .ok a, s => ∃ W', (∀ n r, W n r → W' n r) ∧ PInv P c H0 g obj W' s ∧ Q a W' s
  | .error _, s => ∃ W', Left c.env H0 g obj W' s.heap s.store

theorem storeType_part {n r} {o : Obj} {nd : Node} {od : Option Data} {s : DState} (h : PInv P c H0 g obj W s) (hw : W n r) (ho : s.heap[r.addr]? = some o)
    (hn : s.store[n]? = some nd) (ht : Assoc.get? nd.attrs "type" = none)
    (hd : Head c.env s.heap (expected c.env o.cls).2.fn o nd.attrs od r.subs) (hbo : nd.body = bodyOf od) :
    wp all (dLook c.env) (storeType c n (expected c.env o.cls).1 (expected c.env o.cls).2.base) (After P c H0 g obj W fun _ W' _ => W' = W) s := by
  obtain ⟨hnl, hnT, hng⟩ := h.lt n r hw
  obtain ⟨nd0, d1, d2, d3, _⟩ := h.draft n r hw
  rw [hn] at d1; simp at d1; subst d1
  unfold storeType
  split
  · exact ⟨W, fun _ _ h => h, h, rfl⟩
  · next hne =>
    have hce := expected_cls c.env o.cls hne
    refine wp_bind (wp_mono ?_ (wp_and (Fragile.ok typeEntryNode_fragile s) (typeEntryNode_tabled (S := s.store) (H := s.heap) s ⟨.refl, rfl⟩)))
    intro x s1 ⟨h1, h2, _⟩
    have hleft := left_tabled h h2
    cases x with
    | error e => exact ⟨W, hleft⟩
    | ok e =>
      have hr := h1 e rfl
      rw [run_typeEntryNode] at hr
      obtain ⟨t1, t2, t3, t4, t5, t6, t7⟩ := typeEntryNode_ok h.tinv (cls := (expected c.env o.cls).1) (s1 := s1) (e := e) (by
        rw [hce] at hr ⊢; exact hr)
      rw [hce] at t2
      have hp1 : PInv P c H0 g obj W s1 :=
        { toLeft := hleft, reg := by rw [t7]; exact h.reg, tinv := t1
          lt := fun m q hm => ⟨by have := (h.lt m q hm).1; have := t3.length; omega, (h.lt m q hm).2⟩
          memo := by rw [t6]; exact h.memo
          cls := by rw [t5]; exact h.cls
          subs := by rw [t5]; exact h.subs
          gT := h.gT
          gS := by obtain ⟨nd, e⟩ := h.gS; exact ⟨nd, t4 _ _ h.gT e⟩ }
      have hn1 := t4 _ _ hnT hn
      have hl2 : Left c.env H0 g obj W s1.heap (s1.store.setAttr n "type" (.ref e)) :=
        Left.typed (s := s1) hleft hp1.uniq (fun m q hm => (hp1.lt m q hm).2) h.gT hw (by rw [t5]; exact ho) d3 d2 (by rw [t5]; exact hd) hbo
          (fun _ _ h => h.setAttr (by decide)) (Store.getElem?_setAttr_self hn1 _ _) (fun k hk => Assoc.get?_put_ne _ _ (Ne.symm hk))
          (Assoc.get?_put_self _ _ _) (t2.setAttr (by decide)) (fun m nd _ hmn h => by rw [Store.getElem?_setAttr_ne hmn]; exact h)
          (fun ls hl => by rw [Store.links_setAttr] at hl; exact hl)
      intro ev _
      cases ev with
      | early e' => exact ⟨W, hleft⟩
      | late e' => exact ⟨W, hl2⟩
      | go =>
        refine ⟨W, fun _ _ h => h, ?_, rfl⟩
        exact
          { toLeft := hl2, reg := hp1.reg, tinv := hp1.tinv.setAttr (by decide)
            lt := fun m q hm => ⟨by show m < (s1.store.setAttr n "type" (.ref e)).length; rw [Store.length_setAttr]; exact (hp1.lt m q hm).1, (h.lt m q hm).2⟩
            memo := hp1.memo, cls := hp1.cls, subs := hp1.subs, gT := h.gT
            gS := by
              obtain ⟨nd, e1⟩ := hp1.gS
              obtain ⟨nd', e', _⟩ := Store.body_setAttr (n := n) e1 "type" (.ref e)
              exact ⟨nd', e'⟩ }

theorem Begun.left {s0 s : DState} {p nm a at' o} (h : PInv P c H0 g obj W s0) (hs : Slot H0.length g obj W s0.heap p nm a at') (ho : s0.heap[a]? = some o)
    (hb : Begun s0 p nm o s) : ∃ W', Left c.env H0 g obj W' s.heap s.store := by
  rcases hb with rfl | ⟨n, body, at0, h1, h2, h3, h4⟩
  · exact ⟨W, h.toLeft⟩
  · exact ⟨_, (h.create hs h1 h2.1.2 h2.2 (subs := []) (.bare ho h2.1.1 h3) ⟨by simp, by simp, by simp⟩ h4).toLeft⟩

theorem Begun.ok {s0 s : DState} {p nm a at' o n} (h : PInv P c H0 g obj W s0) (hs : Slot H0.length g obj W s0.heap p nm a at') (ho : s0.heap[a]? = some o)
    (hb : Begun s0 p nm o s) (hne : s ≠ s0) (hn : n = s0.store.length) {subs : Subs} (hsub : SubsOk H0.length s0.heap subs) :
    PInv P c H0 g obj (W.add n ⟨a, subs, at'⟩) s := by
  rcases hb with rfl | ⟨n', body, at0, h1, h2, h3, h4⟩
  · exact absurd rfl hne
  · obtain ⟨_, _, _, _, e, _⟩ := h1.facts
    obtain rfl : n' = n := by omega
    exact h.create hs h1 h2.1.2 h2.2 (.bare ho h2.1.1 h3) hsub h4

theorem created_ne {s0 s : DState} {p nm n body at0} (h : Created s0 p nm n body at0 s) : s ≠ s0 := by
  obtain ⟨_, _, _, _, e1, _, e2, _⟩ := h.facts
  rintro rfl
  have := lt_of_getElem? e2; omega

theorem createPickled_created {c : DCtx} {o p nm s n s1} (h : Verif.createPickled c o p nm s = (.ok n, s1)) : ∃ body, Created s p nm n body [] s1 := by
  rcases o with ⟨cls, v⟩
  cases v with
  | «opaque» st b =>
    cases b with
    | true => exact ⟨_, (mkDset_ok h).2⟩
    | false => simp [Verif.createPickled, M.throw] at h
  | _ => simp [Verif.createPickled, M.throw] at h

theorem dumpCreate_part (hE : EnvOk P c.env) (hm : c.mgr.Ok) {p nm a at' o} {s : DState} (h : PInv P c H0 g obj W s)
    (hs : Slot H0.length g obj W s.heap p nm a at') (ho : s.heap[a]? = some o) :
    wp all (dLook c.env) (dumpCreate c o p nm) (After P c H0 g obj W fun r W' _ => W' r.1 ⟨a, r.2.1, at'⟩) s := by
  obtain ⟨r', hl, hr', _, _⟩ := loadLoader_spec (m := c.mgr) hE hm.dumps (h.cls a o ho) none h.reg
  have hl' : dLook c.env c.mgr o.cls none s = (.ok (expected c.env o.cls), { s with reg := r' }) := by
    unfold dLook onReg; rw [hl]
  unfold dumpCreate
  have h1 := h.reg' hr'
  refine wp_bind ?_
  intro ev _
  rw [hl']
  cases ev with
  | early e => exact ⟨W, h.toLeft⟩
  | late e => exact ⟨W, h1.toLeft⟩
  | go =>
    simp only [strike]
    show wp all _ _ _ _
    generalize hs1 : ({ s with reg := r' } : DState) = s1 at h1
    have hh1 : s1.heap = s.heap := by rw [← hs1]
    rw [← hh1] at hs ho
    clear hs1 hl' hl hr'
    refine wp_see ?_ fun e => ⟨W, h1.toLeft⟩
    refine wp_bind (wp_attempt (wp_mono ?_ (wp_and (Fragile.ok createFn_fragile s1) (createFn_begun (o := o) s1 (.inl rfl)))))
    intro x s2 ⟨k1, k2, k3⟩
    cases x with
    | ok r =>
      obtain ⟨n, subs⟩ := r
      have hr := k1 _ rfl
      rw [run_createFn] at hr
      obtain ⟨at0, od, hc, hat, hd⟩ := createFn_ok hr
      have hsub : SubsOk H0.length s1.heap subs := hd.subsOk ho
      have h2 := Begun.ok h1 hs ho k2 (created_ne hc) (k3 _ rfl) hsub
      obtain ⟨_, _, _, _, _, _, f5, _⟩ := hc.facts
      have hheap : s2.heap = s1.heap := by obtain ⟨_, _, e, _⟩ := hc; rw [e]
      refine wp_bind (wp_mono ?_ (storeType_part h2 (r := ⟨a, subs, at'⟩) (.inr ⟨rfl, rfl⟩) (by rw [hheap]; exact ho) f5 hat.1 (by rw [hheap]; exact hd) rfl))
      intro y s3 hy
      cases y with
      | error e => exact hy
      | ok _ =>
        obtain ⟨W', w1, w2, rfl⟩ := hy
        exact ⟨_, Recs.le_add _ _ _, w2, .inr ⟨rfl, rfl⟩⟩
    | error err =>
      show wp all _ (if err = .notHicklable then _ else _) _ _
      split
      · refine wp_bind (wp_mono ?_ (wp_and (Fragile.ok createPickled_fragile s2) (createPickled_begun (o := o) s2 k2)))
        intro y s3 ⟨g1, g2, g3⟩
        cases y with
        | error e => exact Begun.left h1 hs ho g2
        | ok n =>
          have hr := g1 n rfl
          rw [run_createPickled] at hr
          obtain ⟨body, hc⟩ := createPickled_created hr
          have hne : s3 ≠ s1 := by
            rintro rfl
            rcases k2 with rfl | ⟨n', b', at0, q1, _⟩
            · exact created_ne hc rfl
            · obtain ⟨st, e, _⟩ := hc
              exact created_again q1 e
          exact ⟨_, Recs.le_add _ _ _, Begun.ok h1 hs ho g2 hne (g3 n rfl) (subs := []) ⟨by simp, by simp, by simp⟩, .inr ⟨rfl, rfl⟩⟩
      · exact Begun.left h1 hs ho k2

theorem setAttrs_part {n r} (hw : W n r) (ha : AttrsOk r.attrs) : ∀ l : Attrs, (∀ q ∈ l, q ∈ r.attrs) →
    Safe all (dLook c.env) (PInv P c H0 g obj W) (setAttrs n l) := by
  intro l hl
  exact .forEach _ fun q hq => .op (.modify (fun s hs => hs.attr hw (ha.2 q (hl q hq)) (hl q hq)) trivial)

theorem Safe.after {α : Type} {p : Prog DState α} (h : Safe all (dLook c.env) (PInv P c H0 g obj W) p) {s : DState} (hs : PInv P c H0 g obj W s) :
    wp all (dLook c.env) p (After P c H0 g obj W fun _ W' _ => W' = W) s := by
  refine wp_mono ?_ (h s hs)
  intro x s' ⟨h1, _⟩
  cases x with
  | ok a => exact ⟨W, fun _ _ h => h, h1, rfl⟩
  | error e => exact ⟨W, h1.toLeft⟩

/-- whatever happens in `_dump`, the nodes it made are drafts -/
theorem dumpNode_part (hE : EnvOk P c.env) (hm : c.mgr.Ok) (fuel : Nat) : ∀ (W : Recs) a p nm at' (s : DState), PInv P c H0 g obj W s →
    Slot H0.length g obj W s.heap p nm a at' → wp all (dLook c.env) (dumpNode c fuel a p nm at') (After P c H0 g obj W fun _ _ _ => True) s := by
  induction fuel with
  | zero => exact fun W a p nm at' s h _ => ⟨W, h.toLeft⟩
  | succ fuel ih =>
    intro W a p nm at' s h hs
    have hat := hs.attrsOk h
    simp only [dumpNode]
    refine wp_see ?_ fun e => ⟨W, h.toLeft⟩
    cases hmem : Assoc.get? s.memo a with
    | some t =>
      simp only []
      obtain ⟨r', w1, w2⟩ := h.memo a t hmem
      have key : ∀ l s1, Created s p nm l (.dset (.ref t)) [] s1 → PInv P c H0 g obj (W.add l ⟨a, [], at'⟩) s1 := fun l s1 hc =>
        h.create hs hc rfl (fun _ _ => rfl) (.ref rfl rfl w1 w2) ⟨by simp, by simp, by simp⟩ (by simp)
      have key0 : ∀ l s1, Created s p nm l (.dset .nullRef) [] s1 → PInv P c H0 g obj (W.add l ⟨a, [], at'⟩) s1 := fun l s1 hc =>
        h.create hs hc rfl (fun _ _ => rfl) (.blank rfl rfl) ⟨by simp, by simp, by simp⟩ (by simp)
      refine wp_bind (wp_bind ?_)
      intro ev _
      have hst : ∀ e s1, Verif.mkDset [] p nm .nullRef s = (.error e, s1) → s1 = s := by
        intro e s1 hx
        unfold Verif.mkDset at hx
        split at hx
        · simp at hx; exact hx.2.symm
        · split at hx
          · simp at hx; exact hx.2.symm
          · simp at hx
      show wp all (dLook c.env) (Prog.ret (strike ev (Verif.mkDset [] p nm .nullRef s) s).1) _ (strike ev (Verif.mkDset [] p nm .nullRef s) s).2
      rcases hx : Verif.mkDset [] p nm .nullRef s with ⟨x, s1⟩
      cases ev with
      | early e => exact ⟨W, h.toLeft⟩
      | late e =>
        cases x with
        | error e' => obtain rfl := hst e' s1 hx; exact ⟨W, h.toLeft⟩
        | ok l => exact ⟨_, (key0 l s1 (mkDset_ok hx).2).toLeft⟩
      | go =>
        simp only [strike]
        cases x with
        | error e' => obtain rfl := hst e' s1 hx; exact ⟨W, h.toLeft⟩
        | ok l =>
          have h0 := key0 l s1 (mkDset_ok hx).2
          have h1 := key l _ (created_write (d := .ref t) (mkDset_ok hx).2)
          intro ev' _
          cases ev' with
          | early e => exact ⟨_, h0.toLeft⟩
          | late e => exact ⟨_, h1.toLeft⟩
          | go =>
          show wp all (dLook c.env) (setAttrs l at') _ _
          refine wp_mono ?_ (Safe.after (setAttrs_part (r := ⟨a, [], at'⟩) (.inr ⟨rfl, rfl⟩) hat at' fun _ h => h) h1)
          intro y s2 hy
          cases y with
          | error e => exact hy
          | ok _ =>
            obtain ⟨W', q1, q2, rfl⟩ := hy
            exact ⟨_, Recs.le_add _ _ _, q2, trivial⟩
    | none =>
      simp only []
      cases ho : s.heap[a]? with
      | none => exact ⟨W, h.toLeft⟩
      | some o =>
        simp only []
        refine wp_bind (wp_mono ?_ (dumpCreate_part hE hm h hs ho))
        intro x s1 hx
        cases x with
        | error e => exact hx
        | ok r =>
          obtain ⟨n, subs, mem⟩ := r
          obtain ⟨W1, w1, h1, w2⟩ := hx
          simp only at w2
          refine wp_bind (wp_mono ?_ (Safe.after (setAttrs_part w2 hat _ fun q hq => (List.mem_filter.1 hq).1) h1))
          intro x s2 hx
          cases x with
          | error e => exact hx
          | ok _ =>
            obtain ⟨W1', _, h2, hWe⟩ := hx
            rw [hWe] at h2
            refine wp_bind (wp_mono ?_ (Safe.after (show Safe all (dLook c.env) (PInv P c H0 g obj W1) _ from ?_) h2))
            · intro x s3 hx
              cases x with
              | error e => exact hx
              | ok _ =>
                obtain ⟨W1'', _, h3, hWe'⟩ := hx
                rw [hWe'] at h3
                clear h2 h1 hs h hmem ho
                have loop : ∀ (l : Subs) (W2 : Recs) (s : DState), (∀ q ∈ l, q ∈ subs) → (∀ n r, W1 n r → W2 n r) → PInv P c H0 g obj W2 s →
                    wp all (dLook c.env) (forEach (fun sub => match sub with
                      | .error e => raise e
                      | .ok sub => do
                        let b ← subAddr sub.obj
                        dumpNode c fuel b n sub.name sub.attrs) l) (After P c H0 g obj W2 fun _ _ _ => True) s := by
                  intro l
                  induction l with
                  | nil => exact fun W2 s _ _ h => ⟨W2, fun _ _ h => h, h, trivial⟩
                  | cons q l ihl =>
                    intro W2 s hl hW h
                    simp only [forEach]
                    cases q with
                    | error e => exact ⟨W2, h.toLeft⟩
                    | ok sb =>
                      have hmem := hl _ (List.mem_cons_self ..)
                      have hw2 := hW _ _ w2
                      obtain ⟨b, s0, e1, e2, e3⟩ := h.sub hw2 hmem
                      refine wp_bind (wp_mono (Q := After P c H0 g obj W2 fun _ _ _ => True) ?_ (wp_bind ?_))
                      · intro x s' hx
                        cases x with
                        | error e => exact hx
                        | ok _ =>
                          obtain ⟨W3, v1, v2, _⟩ := hx
                          refine wp_mono ?_ (ihl W3 s' (fun q hq => hl q (by simp [hq])) (fun n r h => v1 _ _ (hW _ _ h)) v2)
                          intro y s'' hy
                          cases y with
                          | error e => exact hy
                          | ok _ =>
                            obtain ⟨W4, u1, u2, _⟩ := hy
                            exact ⟨W4, fun n r h => u1 _ _ (v1 _ _ h), u2, trivial⟩
                      · intro ev _
                        rw [e1]
                        cases ev with
                        | early e => exact ⟨W2, h.toLeft⟩
                        | late e => exact ⟨W2, e2.toLeft⟩
                        | go => exact ih W2 b n sb.name sb.attrs s0 e2 (.sub hw2 hmem e3)
                refine wp_mono ?_ (loop subs _ s3 (fun _ h => h) (fun _ _ h => h) h3)
                intro y s'' hy
                cases y with
                | error e => exact hy
                | ok _ =>
                  obtain ⟨W4, u1, u2, _⟩ := hy
                  exact ⟨W4, fun n r h => u1 _ _ (w1 _ _ h), u2, trivial⟩
            · split
              · exact .op (.modify (fun s hs => hs.memoise w2) trivial)
              · exact .pure trivial

end
end Verif.Prog
