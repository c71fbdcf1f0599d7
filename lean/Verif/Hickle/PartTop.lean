import Verif.Hickle.PartDump
import Verif.Hickle.Stored
/-!
# What a call of `dump` leaves at its path, whatever stopped it
-/
namespace Verif

variable {P : Nat → Prop}

/-- there is nothing to load at the path -/
def NoData (S : Store) (p : List PyStr) : Prop := ∀ g ls, S.resolve 0 p = some g → S.links g = some ls → Assoc.get? ls dataName0 = none

/-- the group at the path holds a dump, finished or not -/
structure Torso (env : Env) (H0 : Heap) (obj : Addr) (p : List PyStr) (S : Store) (g T : NodeId) (W : Recs) (K : Heap) : Prop where
  res : S.resolve 0 p = some g
  table : ∃ ls, S.links g = some ls ∧ Assoc.get? ls tableName = some T
  attrs : ∃ at', S.attrs g = some at' ∧ RootAttrs at'
  left : Left env H0 g obj W K S

/-- what is at the path after a dump -/
def Tried (env : Env) (H0 : Heap) (obj : Addr) (p : List PyStr) (S : Store) : Prop :=
  NoData S p ∨ ∃ g T W K, Torso env H0 obj p S g T W K

namespace Prog

/-- the group at the path is empty -/
structure Begin (P : Nat → Prop) (path : List PyStr) (g : NodeId) (Q : Attrs → Prop) (s : Session) : Prop where
  tree : Tree s.store
  res : s.store.resolve 0 path = some g
  empty : s.store.links g = some []
  attrs : ∃ at', s.store.attrs g = some at' ∧ Q at'
  reg : RegInv P s.reg
  writable : s.writable = true

theorem noData_of {S : Store} {p g ls} (h1 : S.resolve 0 p = some g) (h2 : S.links g = some ls) (h3 : Assoc.get? ls dataName0 = none) : NoData S p := by
  intro g' ls' k1 k2
  rw [h1] at k1; simp at k1; subst k1
  rw [h2] at k2; simp at k2; subst k2; exact h3

theorem Begin.noData {path g Q s} (h : Begin P path g Q s) : NoData s.store path := noData_of h.res h.empty rfl

/-- the state in which `_dump` is called -/
structure Started (P : Nat → Prop) (path : List PyStr) (g T : NodeId) (s : Session) : Prop where
  tree : Tree s.store
  res : s.store.resolve 0 path = some g
  links : s.store.links g = some [(tableName, T)]
  table : s.store.links T = some []
  lt : T < s.store.length
  attrs : ∃ at', s.store.attrs g = some at' ∧ RootAttrs at'
  reg : RegInv P s.reg

theorem Started.noData {path g T s} (h : Started P path g T s) : NoData s.store path := noData_of h.res h.links (by simp [Assoc.get?, show tableName ≠ dataName0 by decide])

theorem Begin.set {path g s k v} {Q Q' : Attrs → Prop} (h : Begin P path g Q s) (hq : ∀ at', Q at' → Q' (Assoc.put at' k v)) :
    Begin P path g Q' { s with store := s.store.setAttr g k v } := by
  have h0 : Ready path g Q s s := ⟨h.tree, h.res, h.empty, h.attrs, rfl⟩
  obtain ⟨s1, e, k1⟩ := h0.set hq
  obtain rfl : ({ s with store := s.store.setAttr g k v } : Session) = s1 := (Prod.mk.inj e).2
  exact ⟨k1.tree, k1.res, k1.empty, k1.attrs, h.reg, h.writable⟩

section
variable {all : Bool} {lk : Lk Call} {p : List PyStr} {g : NodeId} {H0 : Heap} {obj : Addr}

/-- nothing at the path, if the part ended with an exception -/
def Or0 {α : Type} (p : List PyStr) (Q : α → Session → Prop) : Except PyErr α → Call → Prop
  | .ok a, s => Q a s.1
  | .error _, s => NoData s.1.store p

theorem set_part {k v} {Q Q' : Attrs → Prop} (hq : ∀ at', Q at' → Q' (Assoc.put at' k v)) {s : Call} (h : Begin P p g Q s.1) :
    wp all lk (sSetAttr g k v) (Or0 p fun _ => Begin P p g Q') s := by
  have h1 := h.set hq
  intro ev _
  cases ev with
  | early e => exact h.noData
  | late e => exact h1.noData
  | go => exact h1

theorem setOptions_part (os : List (String × Bool)) (hos : ("hickle-4.x", true) ∉ os) : ∀ {s : Call} {maps : List Opt}, Begin P p g RootAttrs s.1 → (Manager.mk maps).Ok →
    wp all lk (setOptions g os maps) (Or0 p fun r s' => Begin P p g RootAttrs s' ∧ (Manager.mk r).Ok) s := by
  induction os with
  | nil => exact fun h hm => ⟨h, hm⟩
  | cons o os ih =>
    obtain ⟨k, on⟩ := o
    have hos' : ("hickle-4.x", true) ∉ os := fun h => hos (by simp [h])
    intro s maps h hm
    cases on with
    | false => simp only [setOptions, Bool.false_eq_true, if_false]; exact ih hos' h hm
    | true =>
      simp only [setOptions, if_true]
      by_cases hv : validOption k = true
      · have hk : k = "custom" := by
          simp only [validOption, Bool.or_eq_true, decide_eq_true_eq] at hv
          rcases hv with hv | hv
          · exact hv
          · subst hv; simp at hos
        subst hk
        refine wp_bind (wp_mono ?_ (set_part (k := optAttr "custom") (v := .bool true) (Q' := RootAttrs) (fun at' ha => by
          obtain ⟨v, hv1, hv2⟩ := ha.py
          refine ⟨?_, ⟨v, ?_, hv2⟩, ?_⟩
          · rw [Assoc.get?_put_ne _ _ (by decide)]; exact ha.ver
          · rw [Assoc.get?_put_ne _ _ (by decide)]; exact hv1
          · intro o ho
            rcases mem_attrOptions_put ho with ho | ho
            · have : optName (optAttr "custom") = some "custom" := by decide
              rw [this] at ho; simpa using ho.symm
            · exact ha.opts o ho) h))
        rintro (e | _) s1 h1
        · exact h1
        · simp only [hv, if_true]
          refine ih hos' h1 ?_
          obtain ⟨pre, p1, p2⟩ := hm
          exact ⟨some "custom" :: pre, by simp only at p1 ⊢; rw [p1]; rfl, by simpa using p2⟩
      · refine wp_bind (wp_mono ?_ (set_part (k := optAttr k) (v := .bool true) (Q' := fun _ => True) (fun _ _ => trivial) h))
        rintro (e | _) s1 h1
        · exact h1
        · simp only [hv]
          exact h1.noData

theorem loaderEnter_part {os : Option (List (String × Bool))} (hos : ∀ l, os = some l → ("hickle-4.x", true) ∉ l) {s : Call} (h : Begin P p g RootAttrs s.1) :
    wp all lk (loaderEnter g os) (Or0 p fun m s' => Begin P p g RootAttrs s' ∧ m.Ok) s := by
  unfold loaderEnter
  refine wp_view ?_ fun _ _ => h.noData
  split
  · exact h.noData
  · refine wp_bind (wp_mono ?_ (show wp all lk (optionMaps g os) (Or0 p fun r s' => Begin P p g RootAttrs s' ∧ (Manager.mk r).Ok) s from ?_))
    · rintro (e | maps) s1 h1
      · exact h1
      · have h1 : Begin P p g RootAttrs s1.1 ∧ (Manager.mk maps).Ok := h1
        exact wp_entry ⟨⟨h1.1.tree, h1.1.res, h1.1.empty, h1.1.attrs, h1.1.reg, h1.1.writable⟩, h1.2⟩ fun _ e => ⟨h1.1.noData, h1.1.noData⟩
    · cases os with
      | some os => exact setOptions_part os (hos os rfl) h ⟨[], rfl, by simp⟩
      | none =>
        obtain ⟨at', h1, h2⟩ := h.attrs
        obtain ⟨maps, k1, k2⟩ := optMaps_ok h2.opts
        have e : onS (Verif.optionMaps g none) s = (.ok maps, s) := by
          unfold onS; rw [optionMaps_none, h1, Option.getD_some, k1]
        intro ev _
        rw [e]
        cases ev with
        | early e => exact h.noData
        | late e => exact h.noData
        | go => exact ⟨h, k2⟩

theorem refEnter_part {env : Env} {s : Call} (h : Begin P p g RootAttrs s.1) :
    wp all lk (refEnter env g) (Or0 p fun m s' => ∃ T, m = ⟨some T, [], [], []⟩ ∧ Started P p g T s') s := by
  unfold refEnter
  refine wp_view ?_ fun _ _ => h.noData
  split
  · exact h.noData
  · refine wp_bind ?_
    have key : match onS (refInit env g) s with
        | (.ok m, s') => ∃ T, m = ⟨some T, [], [], []⟩ ∧ Started P p g T s'.1
        | (.error _, s') => NoData s'.1.store p := by
      unfold onS refInit
      simp only [h.empty, Assoc.get?_nil, h.writable, if_true]
      cases hc : s.1.store.create g tableName (.group []) with
      | error e => exact h.noData
      | ok q =>
        obtain ⟨T, st⟩ := q
        simp only []
        obtain ⟨ls0, c1, c2, c3, c4, c5, c6⟩ := Store.create_links rfl hc
        rw [h.empty] at c1; simp at c1; subst c1
        simp only [List.nil_append] at c2
        obtain ⟨_, _, _, _, _, _, _, _, _, cT, _⟩ := Store.create_ok hc
        refine ⟨T, rfl, Tree.create h.tree rfl hc, Store.resolve_ext (SExt.create hc).links h.res, c2, Store.links_of cT rfl, lt_of_getElem? cT, ?_, h.reg⟩
        obtain ⟨at', h1, h2⟩ := h.attrs
        simp only []
        unfold Store.attrs at h1 ⊢
        cases hn : s.1.store[g]? with
        | none => rw [hn] at h1; simp at h1
        | some nd =>
          rw [hn] at h1; simp at h1; subst h1
          obtain ⟨nd', k1, k2⟩ := SExt.create hc g nd hn
          exact ⟨nd.attrs, by rw [k1]; simp [k2.attrs], h2⟩
    intro ev _
    generalize onS (refInit env g) s = y at key
    obtain ⟨x, s1⟩ := y
    cases x with
    | error e => cases ev <;> first | exact h.noData | exact key
    | ok m =>
      obtain ⟨T, rfl, key⟩ := key
      cases ev with
      | early e => exact h.noData
      | late e => exact key.noData
      | go => exact wp_entry ⟨T, rfl, key.tree, key.res, key.links, key.table, key.lt, key.attrs, key.reg⟩ fun _ e => ⟨key.noData, key.noData⟩

theorem dumpData_part {a : DumpArgs} {mgr : Manager} {T : NodeId} (hE : EnvOk P a.env) (hP : ProtOk P a.env) (hm : mgr.Ok)
    (hcls : ∀ (x : Addr) (o : Obj), a.heap[x]? = some o → GoodCls P a.env o.cls) {s : Call} (h : Started P p g T s.1) :
    wp all (cLook a.env) (dumpData a g mgr ⟨some T, [], [], []⟩) (fun _ s' => Tried a.env a.heap a.obj p s'.1.store) s := by
  unfold dumpData
  simp only []
  have h0 : Tried a.env a.heap a.obj p s.1.store := .inl h.noData
  refine wp_bind ?_
  intro ev _
  cases ev with
  | early e => exact h0
  | late e => exact h0
  | go =>
    have hgT : g ≠ T := by intro e; have := h.links; rw [e, h.table] at this; simp at this
    let s1 : Call := (s.1, { heap := a.heap, store := [], tlinks := [], blinks := [], reg := {} })
    show wp all (cLook a.env) (within (dumpNode ⟨a.env, mgr, a.kw, T⟩ a.fuel a.obj g dataName0 [])) _ s1
    have hi : inner s1 = { heap := a.heap, store := s.1.store, tlinks := [], blinks := [], reg := s.1.reg } := rfl
    have hti : TInv ⟨a.env, mgr, a.kw, T⟩ (inner s1) :=
      { tab := ⟨[], h.table⟩, tl := by intro cls e hn; simp [hi] at hn, bl := by intro b n hn; simp [hi] at hn
        ents := by
          intro ls hls q hq
          have hls' : s.1.store.links T = some ls := hls
          rw [h.table] at hls'
          simp at hls'; subst hls'; simp at hq }
    have hp0 : PInv P ⟨a.env, mgr, a.kw, T⟩ a.heap g a.obj (fun _ _ => False) (inner s1) :=
      { pre := List.prefix_rfl, temps := fun x hx o ho => absurd (lt_of_getElem? ho) (by rw [hi]; simp only; omega)
        draft := fun _ _ h => h.elim
        root := fun ls m hl hm => by
          have hl' : s.1.store.links g = some ls := hl
          rw [h.links] at hl'; simp at hl'; subst hl'; simp at hm
          exact absurd hm.1 (by decide)
        reg := h.reg, tinv := hti, uniq := fun _ _ _ h => h.elim, lt := fun _ _ h => h.elim, memo := fun a n hn => by simp [hi] at hn
        cls := hcls, subs := fun _ _ h => h.elim, gT := hgT
        gS := by obtain ⟨nd, e, _⟩ := Store.links_eq h.links; exact ⟨nd, e⟩ }
    have hg0 : Going P s.1.store.length g T dataName0 s.1.store [] (inner s1) := ⟨.refl, Nat.le_refl _, h.reg, List.nil_prefix⟩
    refine wp_mono ?_ (wp_within (wp_and (dumpNode_part (c := ⟨a.env, mgr, a.kw, T⟩) hE hm a.fuel _ a.obj g dataName0 [] _ hp0 .top)
      (dumpNode_safe (c := ⟨a.env, mgr, a.kw, T⟩) hE hP a.fuel a.obj g dataName0 [] (.inl ⟨rfl, rfl⟩) (inner s1) hg0)))
    intro x s' ⟨⟨h1, h2, _⟩, _⟩
    have hleft : ∃ W K, Left a.env a.heap g a.obj W K s'.1.store := by
      cases x with
      | ok _ => obtain ⟨W, _, w, _⟩ := h1; exact ⟨W, _, w.toLeft⟩
      | error e => obtain ⟨W, w⟩ := h1; exact ⟨W, _, w⟩
    obtain ⟨W, K, hleft⟩ := hleft
    have hon : OnPath s.1.store p g := ⟨p, List.prefix_rfl, h.res⟩
    have hc : Chg (p ++ [tableName]) s.1.store s'.1.store := Chg.ofGrow .refl h2.grow (Nat.le_refl _)
      (.inr ⟨p, List.prefix_append _ _, h.res⟩)
      (.inr ⟨p ++ [tableName], List.prefix_rfl, by rw [Store.resolve_append, h.res]; simp [Store.resolve, h.links, Assoc.get?]⟩)
    refine .inr ⟨g, T, W, K, Store.resolve_ext hc.glinks h.res, ?_, ?_, hleft⟩
    · obtain ⟨ls', hl'⟩ := hc.glinks g _ h.links
      exact ⟨_, hl', by simp [Assoc.get?]⟩
    · obtain ⟨at', e1, e2⟩ := h.attrs
      obtain ⟨nd, hn, hb⟩ := Store.links_eq h.links
      obtain ⟨nd', k1, _, _, _, k2, _⟩ := hc.keep g nd hn
      refine ⟨at', ?_, e2⟩
      rw [← e1]; simp [Store.attrs, k1, hn, k2 (by rw [hb]; simp)]

/-- **whatever happens in `dump`**, at the path there is a dump of the object, finished or not, or nothing to load -/
theorem dumpTop_part {a : DumpArgs} (hE : EnvOk P a.env) (hP : ProtOk P a.env) (hcls : ∀ (x : Addr) (o : Obj), a.heap[x]? = some o → GoodCls P a.env o.cls)
    {s : Call} (hreg : RegInv P s.1.reg) (hT : Tree s.1.store) (ho : OptsOk a s.1.store) (hfree : ∀ g ls, s.1.store.resolve 0 a.path = some g → s.1.store.links g = some ls → ls = []) :
    wp all (cLook a.env) (dumpTop a) (fun _ s' => Tried a.env a.heap a.obj a.path s'.1.store) s := by
  have h0 : Tried a.env a.heap a.obj a.path s.1.store := .inl fun g ls h1 h2 => by rw [hfree g ls h1 h2]; rfl
  unfold dumpTop
  refine wp_view ?_ fun _ _ => h0
  split
  · exact h0
  · next hw =>
    have hw : s.1.writable = true := by simpa using hw
    have key : match onS (dumpGroup a.path) s with
        | (.ok g, s') => Begin P a.path g (fun at' => ∀ o ∈ attrOptions at', o = "custom") s'.1
        | (.error _, s') => NoData s'.1.store a.path := by
      unfold onS
      cases hd : dumpGroup a.path s.1 with
      | mk x s1 =>
      cases x with
      | error e => obtain rfl := dumpGroup_err hd; exact fun g ls h1 h2 => by rw [hfree g ls h1 h2]; rfl
      | ok g =>
        obtain ⟨ht, hs1⟩ := dumpGroup_ok hd
        have hQ : ∃ at', s1.store.attrs g = some at' ∧ ∀ o ∈ attrOptions at', o = "custom" := by
          obtain ⟨nd, hn, _⟩ := Store.links_eq ht.empty
          have hat : s1.store.attrs g = some nd.attrs := by simp [Store.attrs, hn]
          refine ⟨nd.attrs, hat, ?_⟩
          rw [ht.attrs] at hat
          split at hat
          · next hlt =>
            rcases ht.place with hp | ⟨⟨q1, hq, hr⟩, _⟩
            · omega
            · have hr2 : s1.store.resolve 0 q1 = some g := Store.resolve_ext ht.chg.glinks hr
              have : q1 = a.path := (ht.chg.tree hT).path_unique _ _ hr2 ht.res
              subst this
              exact ho.stale g _ hr hat
          · simp at hat; rw [hat]; simp [attrOptions, attrItems]
        exact ⟨ht.chg.tree hT, ht.res, ht.empty, hQ, by rw [hs1]; exact hreg, by rw [hs1]; exact hw⟩
    refine wp_bind ?_
    intro ev he
    generalize onS (dumpGroup a.path) s = y at key
    obtain ⟨x, s1⟩ := y
    cases x with
    | error e => cases ev <;> first | exact h0 | exact .inl key
    | ok g =>
    cases ev with
    | early e => exact h0
    | late e => exact .inl key.noData
    | go =>
      simp only [strike]
      refine wp_bind (wp_mono ?_ (set_part (k := "HICKLE_VERSION") (v := .bytes hickleVersion)
        (Q' := fun at' => Assoc.get? at' "HICKLE_VERSION" = some (.bytes hickleVersion) ∧ ∀ o ∈ attrOptions at', o = "custom") (fun at' hq => by
          refine ⟨Assoc.get?_put_self _ _ _, fun o ho => ?_⟩
          rcases mem_attrOptions_put ho with ho | ho
          · have : optName "HICKLE_VERSION" = none := by decide
            rw [this] at ho; simp at ho
          · exact hq o ho) (s := s1) key))
      rintro (e | _) s2 h2
      · exact .inl h2
      refine wp_bind (wp_mono ?_ (set_part (k := "HICKLE_PYTHON_VERSION") (v := .bytes (verText a.pyver)) (Q' := RootAttrs) (fun at' hq => by
          refine ⟨?_, ⟨_, Assoc.get?_put_self _ _ _, verText_truthy _⟩, fun o ho => ?_⟩
          · rw [Assoc.get?_put_ne _ _ (by decide)]; exact hq.1
          · rcases mem_attrOptions_put ho with ho | ho
            · have : optName "HICKLE_PYTHON_VERSION" = none := by decide
              rw [this] at ho; simp at ho
            · exact hq.2 o ho) h2))
      rintro (e | _) s3 h3
      · exact .inl h3
      refine wp_bind (wp_mono ?_ (loaderEnter_part (os := a.options) ho.call h3))
      rintro (e | mgr) s4 h4
      · exact .inl h4
      have h4 : Begin P a.path g RootAttrs s4.1 ∧ mgr.Ok := h4
      refine wp_with (I := fun t => Tried a.env a.heap a.obj a.path t.1.store) ?_ (fun t ht => ht) (fun _ t ht => ht)
      refine wp_bind (wp_mono ?_ (refEnter_part (env := a.env) h4.1))
      rintro (e | m) s5 h5
      · exact .inl h5
      obtain ⟨T, rfl, h5⟩ : ∃ T, m = ⟨some T, [], [], []⟩ ∧ Started P a.path g T s5.1 := h5
      exact wp_with (I := fun t => Tried a.env a.heap a.obj a.path t.1.store) (dumpData_part hE hP h4.2 hcls h5) (fun t ht => ht) (fun _ t ht => ht)

end
end Prog

theorem dumpF_tried {a : DumpArgs} (hE : EnvOk P a.env) (hP : ProtOk P a.env) (hcls : ∀ (x : Addr) (o : Obj), a.heap[x]? = some o → GoodCls P a.env o.cls)
    {s : Session} (hreg : RegInv P s.reg) (hT : Tree s.store) (ho : OptsOk a s.store)
    (hfree : ∀ g ls, s.store.resolve 0 a.path = some g → s.store.links g = some ls → ls = []) (all : Bool) (es : List Prog.Ev) :
    Tried a.env a.heap a.obj a.path (Prog.dumpF all es a s).2.store :=
  Prog.wp_sound _ (Prog.dumpTop_part (a := a) hE hP hcls (s := (s, { heap := a.heap, store := [], reg := {} })) hreg hT ho hfree) es

end Verif
