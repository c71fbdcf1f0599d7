import Verif.Hickle.DumpTotal
import Verif.Props.C01
/-!
# C40 `dump` accepts every object graph in its domain

Specification: `Verif/Hickle/DumpDomain.lean` (which object graphs) and `Free` below (where to).
-/
namespace Verif

variable {P : Nat → Prop}

/-- a path that can be dumped to: it names an empty group, or part of it is missing and there is no
dataset on the way -/
def Free (S : Store) (path : List PyStr) : Prop :=
  (∃ g, S.resolve 0 path = some g ∧ S.links g = some []) ∨
  (S.resolve 0 path = none ∧ ∀ q, q <+: path → ∀ n, S.resolve 0 q = some n → (S.links n).isSome = true)

/-- A call of `dump` that ought to return. -/
structure CanDump (P : Nat → Prop) (a : DumpArgs) (s : Session) : Prop where
  /-- loader modules do not meddle with the built-in classes -/
  env : EnvOk P a.env
  prot : ProtOk P a.env
  /-- what `repr` of a float looks like -/
  text : TextOk a.env
  /-- no call is in progress for the file -/
  file : FileOk P s
  writable : s.writable = true
  free : Free s.store a.path
  /-- names HDF5 can store -/
  path : ∀ x ∈ a.path, badName x = false ∧ (utf8Encode x).isSome = true
  options : ∃ os, a.options = some os ∧ ∀ k, (k, true) ∈ os → k = "custom"
  kw : KwOk a.kw
  cls : ∀ (x : Addr) (o : Obj), a.heap[x]? = some o → GoodCls P a.env o.cls
  graph : DumpDomain a.env a.kw a.heap
  obj : a.obj < a.heap.length
  /-- recursion depth; the content of an array of strings or objects is stored as nested lists -/
  fuel : ∃ D, (∀ (x : Addr) (o : Obj), a.heap[x]? = some o → o.val.depth ≤ D) ∧ (D + 1) * a.heap.length + 1 ≤ a.fuel

theorem Store.mkPath_total (xs : List PyStr) : ∀ {S : Store} {n : NodeId}, (∀ x ∈ xs, GoodName x) →
    (∀ q, q <+: xs → ∀ m, S.resolve n q = some m → (S.links m).isSome = true) → ∃ r, S.mkPath n xs = .ok r := by
  induction xs with
  | nil => intro S n _ _; exact ⟨_, rfl⟩
  | cons x xs ih =>
    intro S n hx hl
    simp only [Store.mkPath]
    have h0 := hl [] (by simp) n rfl
    cases hls : S.links n with
    | none => rw [hls] at h0; simp at h0
    | some ls =>
      simp only []
      cases hg : Assoc.get? ls x with
      | some m =>
        refine ih (fun y hy => hx y (by simp [hy])) fun q hq m' hm' => ?_
        refine hl (x :: q) (by simpa using hq) m' ?_
        simp only [Store.resolve, hls, hg]; exact hm'
      | none =>
        obtain ⟨m, S', hc⟩ := create_total (.group []) hls (hx x (by simp)) hg
        simp only [hc]
        refine ih (fun y hy => hx y (by simp [hy])) fun q hq m' hm' => ?_
        obtain ⟨_, _, _, _, _, _, _, _, _, cT, _⟩ := Store.create_ok hc
        have hlm : S'.links m = some [] := Store.links_of cT rfl
        cases q with
        | nil => simp [Store.resolve] at hm'; subst hm'; rw [hlm]; rfl
        | cons y q => simp only [Store.resolve, hlm, Assoc.get?_nil] at hm'; simp at hm'

theorem setOptions_total {path g s0} (os : List (String × Bool)) (hos : ∀ k, (k, true) ∈ os → k = "custom") : ∀ {s maps},
    Ready path g (fun _ => True) s0 s → ∃ r s', setOptions g os maps s = (.ok r, s') ∧ Ready path g (fun _ => True) s0 s' := by
  induction os with
  | nil => intro s maps h; exact ⟨_, _, rfl, h⟩
  | cons o os ih =>
    obtain ⟨k, on⟩ := o
    intro s maps h
    have hos' : ∀ k, (k, true) ∈ os → k = "custom" := fun k hk => hos k (by simp [hk])
    cases on with
    | false => simp only [setOptions, Bool.false_eq_true, if_false]; exact ih hos' h
    | true =>
      obtain rfl := hos k (by simp)
      simp only [setOptions, if_true]
      obtain ⟨s1, e1, h1⟩ := h.set (Q' := fun _ => True) (k := optAttr "custom") (v := .bool true) (fun _ _ => trivial)
      rw [M.bind_of_ok e1, if_pos (show validOption "custom" = true by decide)]
      exact ih hos' h1

/-- **C40.**  `dump` returns for every object graph in its domain, of any size and with any sharing
or cycles, whatever else the file holds. -/
theorem C40_total_partial {a : DumpArgs} {s : Session} (h : CanDump P a s) : ∃ s', dumpTop a s = (.ok (), s') := by
  obtain ⟨os, hopt, hos⟩ := h.options
  obtain ⟨D, hD1, hD2⟩ := h.fuel
  have hv4 : ("hickle-4.x", true) ∉ os := fun hm => by have := hos _ hm; simp at this
  have hends := dumpTop_ends h.env h.prot h.file.reg h.graph.wf h.cls hopt h.obj (D := D) hD1 (by omega)
  have hpath : pathOk a.path = .ok () := by
    unfold pathOk
    rw [if_neg, if_neg]
    · simp only [List.any_eq_true, not_exists, not_and]
      intro x hx hb
      have := (h.path x hx).2
      rw [Option.isNone_iff_eq_none] at hb
      rw [hb] at this; simp at this
    · simp only [List.any_eq_true, not_exists, not_and]
      intro x hx hb; rw [(h.path x hx).1] at hb; simp at hb
  obtain ⟨g, s1, hd⟩ : ∃ g s1, dumpGroup a.path s = (.ok g, s1) := by
    unfold dumpGroup
    rw [hpath]
    simp only []
    rcases h.free with ⟨g, h1, h2⟩ | ⟨h1, h2⟩
    · simp only [h1, h2]; exact ⟨_, _, rfl⟩
    · obtain ⟨⟨g, st⟩, h3⟩ := Store.mkPath_total a.path h.path h2
      simp only [h1, h3]; exact ⟨_, _, rfl⟩
  obtain ⟨ht, hs1⟩ := dumpGroup_ok hd
  have r1 : Ready a.path g (fun _ => True) s s1 := by
    refine ⟨ht.chg.tree h.file.tree, ht.res, ht.empty, ?_, hs1⟩
    obtain ⟨nd, hn, _⟩ := Store.links_eq ht.empty
    exact ⟨nd.attrs, by simp [Store.attrs, hn], trivial⟩
  obtain ⟨s2, e2, r2⟩ := r1.set (k := "HICKLE_VERSION") (v := .bytes hickleVersion) (Q' := fun _ => True) (fun _ _ => trivial)
  obtain ⟨s3, e3, r3⟩ := r2.set (k := "HICKLE_PYTHON_VERSION") (v := .bytes (verText a.pyver)) (Q' := fun _ => True) (fun _ _ => trivial)
  have hl3 : s3.ldr = false := by rw [r3.rest]; exact h.file.ldr
  obtain ⟨maps, s4, e4, r4⟩ := setOptions_total os hos (maps := [none]) r3
  have hmgr : (Manager.mk maps).Ok := setOptions_ok os hv4 ⟨[], rfl, by simp⟩ e4
  have e5 : loaderEnter g a.options s3 = (.ok ⟨maps⟩, { s4 with ldr := true }) := by
    unfold loaderEnter
    rw [M.bind_of_ok (M.get_apply s3)]
    simp only [hl3, Bool.false_eq_true, if_false, hopt]
    rw [M.bind_of_ok (show optionMaps g (some os) s3 = _ from e4), M.bind_of_ok (M.modify_apply _ _)]
    rfl
  have hw4 : s4.writable = true := by rw [r4.rest]; exact h.writable
  have hr4 : s4.ref = false := by rw [r4.rest]; exact h.file.ref h.writable
  have hreg4 : RegInv P s4.reg := by rw [r4.rest]; exact h.file.reg
  obtain ⟨T, st, hcr⟩ := create_total (.group []) r4.empty (name := tableName) (by unfold GoodName; decide) rfl
  have e6 : refEnter a.env g { s4 with ldr := true } = (.ok ⟨some T, [], [], []⟩, { s4 with ldr := true, ref := true, store := st }) := by
    have : refInit a.env g { s4 with ldr := true } = (.ok ⟨some T, [], [], []⟩, { s4 with ldr := true, store := st }) := by
      unfold refInit; simp only [r4.empty, Assoc.get?_nil, hw4, if_true, hcr]
    unfold refEnter
    rw [M.bind_of_ok (M.get_apply _)]
    simp only [hr4, Bool.false_eq_true, if_false]
    rw [show ({ s4 with ldr := true, ref := false } : Session) = { s4 with ldr := true } by rw [← hr4]]
    rw [M.bind_of_ok this]
    rfl
  obtain ⟨ls0, c1, c2, c3, c4, c5, c6⟩ := Store.create_links rfl hcr
  rw [r4.empty] at c1; simp at c1; subst c1
  simp only [List.nil_append] at c2
  obtain ⟨_, _, _, _, _, _, _, _, _, cT, _⟩ := Store.create_ok hcr
  have hlT : st.links T = some [] := Store.links_of cT rfl
  have hgT : g ≠ T := by
    intro e
    rw [e, hlT] at c2; simp at c2
  let c : DCtx := ⟨a.env, ⟨maps⟩, a.kw, T⟩
  let s0 : DState := { heap := a.heap, store := st, tlinks := [], blinks := [], reg := s4.reg }
  have hti : TInv c s0 :=
    { tab := ⟨[], hlT⟩, tl := by intro cls e hn; simp [s0] at hn, bl := by intro b n hn; simp [s0] at hn
      ents := by
        intro ls hls p hp
        have hls' : st.links T = some ls := hls
        rw [hlT] at hls'
        simp at hls'; subst hls'; simp at hp }
  have h0 : DInv P c a.heap.length [] [] s0 :=
    { reg := hreg4, tinv := hti, done := by simp, memo := by simp [s0, Assoc.get?]
      memoised := by intro n a o hw; simp [W2] at hw
      uniq := by intro n a o hw; simp [W2] at hw
      lt := by intro n a hw; simp [W2] at hw
      cls := h.cls, len := Nat.le_refl _
      temps := fun p o h1 h2 => by have h2 : a.heap[p]? = some o := h2; have := lt_of_getElem? h2; omega }
  have hret := dumpNode_total (c := c) h.env h.text hmgr h.kw (H := a.heap) a.fuel a.obj g dataName0 [] s0 [] [] _ h0 (by simp) hgT ⟨by simp, by simp⟩
    ⟨[], hlT, by simp⟩ ⟨h.graph, List.prefix_rfl, fun p o h1 h2 => by have h2 : a.heap[p]? = some o := h2; have := lt_of_getElem? h2; omega⟩
    c2 (by unfold GoodName; decide) (by simp [Assoc.get?, show tableName ≠ dataName0 by decide]) h.obj
  have htop : (dumpTop a s).1 = (dumpNode c a.fuel a.obj g dataName0 [] s0).1 := by
    unfold dumpTop
    rw [M.bind_of_ok (M.get_apply s)]
    simp only [h.writable, Bool.not_true, Bool.false_eq_true, if_false]
    rw [M.bind_of_ok hd, M.bind_of_ok e2, M.bind_of_ok e3, M.bind_of_ok e5]
    unfold loaderExit
    rw [finally'_modify, M.bind_of_ok e6]
    unfold refExit
    rw [finally'_modify]
    rfl
  rcases hret with he | ⟨s', he, _⟩
  · rw [htop] at hends; exact absurd he hends
  · refine ⟨(dumpTop a s).2, Prod.ext ?_ rfl⟩
    rw [htop, he]

/-- **C01 without the assumption that `dump` returns**: an acyclic graph in the domain of both is
stored and read back. -/
theorem C40_round_trip {a : DumpArgs} {s : Session} (h : CanDump P a s) (hg : GoodHeap P a.env a.heap) (hr : ∃ rk, Ranked a.heap rk) (ho : OptsOk a s.store) :
    ∃ s', dumpTop a s = (.ok (), s') ∧ Loads P a.env s'.store a.path fun L b => Copy a.heap L b a.obj := by
  obtain ⟨s', hs⟩ := C40_total_partial h
  exact ⟨s', hs, C01_round_trip ⟨h.env, h.prot, h.file, hg, hr, h.obj, ho, hs⟩⟩

/-! ### the hypotheses are met -/

namespace Ex

def isNumB (H : Heap) (a : Addr) : Bool := (H[a]?.bind exactNum).isSome

theorem isNum_iff {H : Heap} {a : Addr} : IsNum H a ↔ isNumB H a = true := by
  unfold IsNum isNumB
  cases h : H[a]? with
  | none => simp
  | some o => cases h2 : exactNum o <;> simp [h2]

def shortB (o : Obj) : Bool := decide (o.cls = .bytes) && match o.val with
  | .bytes b => decide (b.length ≤ 1)
  | _ => false

theorem short_of {o : Obj} (h : shortB o = false) : ¬ o.ShortBytes := by
  rintro ⟨h1, b, h2, h3⟩
  simp [shortB, h1, h2, h3] at h

def raggedB (env : Env) (H : Heap) (a : Addr) : Bool :=
  env.raggedRaises && (match H[a]? with | some ⟨_, .seq _⟩ => true | _ => false) && (npShape H (env.maxDims + 1) a).isNone

theorem ragged_of {env : Env} {H : Heap} {a : Addr} (h : raggedB env H a = false) : ¬ Ragged env H a := by
  rintro ⟨h1, ⟨cl, items, h2⟩, h3⟩
  simp [raggedB, h1, h2, h3] at h

def fitB (H : Heap) (items : List Addr) (a : Addr) : Bool :=
  match H[a]?.bind exactNum with
  | some (.i x) => (NpVal.i x).ok || ((F64.ofInt x).isSome && items.any fun b => match H[b]?.bind exactNum with
    | some v => decide (v.dt = .float64 ∨ v.dt = .complex128)
    | none => false)
  | _ => true

/-- computable form of `ItemsOk` -/
def itemsB (env : Env) (H : Heap) (items : List Addr) : Bool :=
  (match items.head? with
    | none => true
    | some a => (match H[a]? with | some o => !shortB o | none => true) &&
      (!isNumB H a || items.all fun b => !raggedB env H b && match H[b]? with | some o => !shortB o | none => true)) &&
  (!items.all (isNumB H) || items.all (fitB H items))

theorem itemsOk_of {env : Env} {H : Heap} {items : List Addr} (h : itemsB env H items = true) : ItemsOk env H items := by
  simp only [itemsB, Bool.and_eq_true, Bool.or_eq_true, Bool.not_eq_true'] at h
  obtain ⟨h1, h2⟩ := h
  constructor
  · intro a o ha ho
    rw [ha] at h1
    simp only [ho, Bool.and_eq_true, Bool.not_eq_true'] at h1
    exact short_of h1.1
  · intro a ha hn b hb
    rw [ha] at h1
    simp only [Bool.and_eq_true, Bool.or_eq_true, Bool.not_eq_true', isNum_iff.1 hn, Bool.true_eq_false, false_or] at h1
    have := List.all_eq_true.1 h1.2 b hb
    simp only [Bool.and_eq_true, Bool.not_eq_true'] at this
    refine ⟨ragged_of this.1, fun o ho => ?_⟩
    rw [ho] at this
    exact short_of (by simpa using this.2)
  · intro hall a ha o x ho hx
    have h3 : items.all (isNumB H) = true := List.all_eq_true.2 fun b hb => isNum_iff.1 (hall b hb)
    rw [h3] at h2
    have h4 := List.all_eq_true.1 (h2.resolve_left (by simp)) a ha
    simp only [fitB, ho, Option.bind_some, hx, Bool.or_eq_true, Bool.and_eq_true] at h4
    rcases h4 with h4 | ⟨h4, h5⟩
    · exact .inl h4
    · obtain ⟨b, hb, h6⟩ := List.any_eq_true.1 h5
      cases hp : H[b]? with
      | none => simp [hp] at h6
      | some p =>
        cases hv : exactNum p with
        | none => simp [hp, hv] at h6
        | some v => exact .inr ⟨h4, b, hb, p, v, hp, hv, by simpa [hp, hv] using h6⟩

def nanB (H : Heap) (a : Addr) : Bool :=
  match H[a]? with
  | some ⟨_, .float x⟩ => decide (x = .nan)
  | some ⟨_, .cplx x y⟩ => decide (x = .nan) || decide (y = .nan)
  | _ => false

theorem nan_of {H : Heap} {a : Addr} (h : nanB H a = false) : ¬ IsNanAt H a := by
  rintro ⟨⟨cl, v⟩, ho, hv⟩
  simp only at hv
  rcases hv with rfl | ⟨x, y, rfl, hv⟩
  · simp [nanB, ho] at h
  · rcases hv with rfl | rfl <;> simp [nanB, ho] at h

def keyDumpB (env : Env) (q : Obj) : Bool :=
  (match q.val with
    | .str s => decide (0 ∉ s)
    | .bytes b => decide (0 ∉ b)
    | .int i => digitsOk env i
    | _ => true) &&
  (match q.cls with | .user k => !dictKeyTypes.contains (env.u k).name | _ => true)

theorem keyDump_of {env : Env} {q : Obj} (h : keyDumpB env q = true) : KeyDump env q := by
  simp only [keyDumpB, Bool.and_eq_true] at h
  obtain ⟨h1, h2⟩ := h
  constructor
  · intro s hs; rw [hs] at h1; simpa using h1
  · intro s hs; rw [hs] at h1; simpa using h1
  · intro s hs; rw [hs] at h1; simpa using h1
  · intro k hk; rw [hk] at h2; simpa using h2

def pairNoneB (env : Env) (H : Heap) (p : Addr × Addr) : Bool :=
  match H[p.1]? with
  | none => true
  | some q => keyDumpB env q && (match keySlot env q with | .ok none => itemsB env H [p.1, p.2] | _ => true)

def onlyNanB (H : Heap) : List (Addr × Addr) → Bool
  | [] => true
  | e :: es => (!nanB H e.1 || es.all fun f => !nanB H f.1) && onlyNanB H es

theorem onlyNan_of {H : Heap} {es : List (Addr × Addr)} (h : onlyNanB H es = true) : es.Pairwise fun e f => ¬ (IsNanAt H e.1 ∧ IsNanAt H f.1) := by
  induction es with
  | nil => exact .nil
  | cons e es ih =>
    simp only [onlyNanB, Bool.and_eq_true, Bool.or_eq_true, Bool.not_eq_true'] at h
    refine .cons ?_ (ih h.2)
    intro f hf hn
    rcases h.1 with h1 | h1
    · exact nan_of h1 hn.1
    · have := List.all_eq_true.1 h1 f hf
      exact nan_of (by simpa using this) hn.2

/-- computable form of `DictOk` -/
def dictB (env : Env) (H : Heap) (es : List (Addr × Addr)) : Bool :=
  distinctB env H (es.map Prod.fst) && onlyNanB H es && es.all (pairNoneB env H)

theorem dictOk_of {env : Env} {H : Heap} {es} (h : dictB env H es = true) : DictOk env H es := by
  simp only [dictB, Bool.and_eq_true] at h
  refine ⟨distinct_of h.1.1, onlyNan_of h.1.2, ?_⟩
  intro k v hkv q hq
  have := List.all_eq_true.1 h.2 (k, v) hkv
  simp only [pairNoneB, hq, Bool.and_eq_true] at this
  refine ⟨keyDump_of this.1, fun hs => ?_⟩
  rw [hs] at this
  exact itemsOk_of this.2

/-- computable form of `ObjDump` -/
def dumpB (env : Env) (kw : List Kw) (H : Heap) (o : Obj) : Bool :=
  KindOk env o && clsPicklable env o.cls && o.val.children.all (fun b => decide (b < H.length)) &&
  (match o.val with
    | .str s => (utf8Encode s).isSome
    | .int i => digitsOk env i
    | .arr _ shape _ => decide (shape ≠ []) || decide (kw = [])
    | .masked _ shape _ _ => decide (shape ≠ []) || decide (kw = [])
    | .sarr _ shape ss => decide (ss.length = shSize shape) && ss.all fun s => (utf8Encode s).isSome
    | .oarr shape items => decide (items.length = shSize shape) && (match shape.getLast? with
      | some n => (List.range (items.length + 1)).all fun i => itemsB env H ((items.drop (i * n)).take n)
      | none => true)
    | .sparse _ _ _ shape => decide (shape.length = 2) && shape.all fun n => decide (n < 2 ^ 63)
    | .seq items => itemsB env H items
    | .set items => itemsB env H items
    | .dict es => dictB env H es
    | _ => true)

theorem domain_of {env : Env} {kw : List Kw} {H : Heap} (h : H.all (dumpB env kw H) = true) : DumpDomain env kw H := by
  rw [List.all_eq_true] at h
  constructor
  · intro a o ho b hb
    have := h o (List.mem_of_getElem? ho)
    simp only [dumpB, Bool.and_eq_true] at this
    simpa using List.all_eq_true.1 this.1.2 b hb
  · intro a o ho
    have := h o (List.mem_of_getElem? ho)
    simp only [dumpB, Bool.and_eq_true] at this
    obtain ⟨⟨⟨h1, h2⟩, _⟩, h3⟩ := this
    refine ⟨⟨h1, fun _ => h2, ?_, ?_, ?_, ?_, ?_, ?_, ?_, ?_⟩, ?_⟩
    · intro s hs; rw [hs] at h3; exact h3
    · intro s hs _; rw [hs] at h3; exact h3
    · intro d data hs; rw [hs] at h3; simpa using h3
    · intro d data m hs; rw [hs] at h3; simpa using h3
    · intro items hs; rcases hs with hs | hs <;> (rw [hs] at h3; exact itemsOk_of h3)
    · intro w shape ss hs; rw [hs] at h3; simpa using h3
    · intro shape items hs
      rw [hs] at h3
      simp only [Bool.and_eq_true, decide_eq_true_eq] at h3
      refine ⟨h3.1, fun n i hn => ?_⟩
      rw [hn] at h3
      rcases Nat.eq_zero_or_pos n with rfl | hn0
      · rw [List.take_zero]; exact itemsOk_of rfl
      · rcases Nat.lt_or_ge i (items.length + 1) with hi | hi
        · exact itemsOk_of (List.all_eq_true.1 h3.2 i (List.mem_range.2 hi))
        · rw [List.drop_eq_nil_of_le (Nat.le_trans (show items.length ≤ i by omega) (Nat.le_mul_of_pos_right i hn0)), List.take_nil]
          exact itemsOk_of rfl
    · intro d i p shape hs; rw [hs] at h3; simpa using h3
    · intro es hs; rw [hs] at h3; exact dictOk_of h3

theorem depth_of {H : Heap} {D : Nat} (h : H.all (fun o => decide (o.val.depth ≤ D)) = true) (x : Addr) (o : Obj) (ho : H[x]? = some o) : o.val.depth ≤ D := by
  simpa using List.all_eq_true.1 h o (List.mem_of_getElem? ho)

theorem free_new : Free file0.store [] := .inl ⟨0, rfl, rfl⟩

/-- the graph of `Ex`, to a path of which nothing exists yet, is in the domain -/
theorem canDump : CanDump (fun _ => True) { dumpArgs with fuel := 100 } file0 where
  env := envOk
  prot := protOk
  text := textOk
  file := file0_ok
  writable := rfl
  free := by
    refine .inr ⟨by decide +kernel, ?_⟩
    intro q hq n hn
    cases q with
    | nil => simp [Store.resolve] at hn; subst hn; rfl
    | cons x q =>
      have hl : file0.store.links 0 = some [] := rfl
      simp only [Store.resolve, hl, Assoc.get?_nil] at hn; simp at hn
  path := by decide +kernel
  options := ⟨[], rfl, by simp⟩
  kw := ⟨by simp [dumpArgs], by simp [dumpArgs]⟩
  cls := fun x o ho => (goodHeap.cls x o ho).1
  graph := domain_of (by decide +kernel)
  obj := by decide +kernel
  fuel := ⟨1, depth_of (by decide +kernel), by decide +kernel⟩

example : ∃ s', dumpTop { dumpArgs with fuel := 100 } file0 = (.ok (), s') ∧ Loads (fun _ => True) env s'.store dumpArgs.path fun L b => Copy heap L b dumpArgs.obj :=
  C40_round_trip canDump goodHeap ⟨_, ranked⟩ ⟨optsOk.1, optsOk.2⟩

/-- a cyclic graph: a dict with keys of different types, one of them a tuple, in a list that contains itself -/
def loop : Heap :=
  [⟨.int, .int 5⟩, ⟨.str, .str (ps "a")⟩, ⟨.tuple, .seq [0, 1]⟩, ⟨.float, .float .nan⟩, ⟨.dict, .dict [(1, 0), (2, 5), (0, 5), (3, 1)]⟩,
   ⟨.list, .seq [4, 5, 0]⟩]

/-- it is in the domain of `dump`, which returns (but see C03: `load` cannot read it) -/
example : ∃ s', dumpTop { args loop 5 with kw := [.compression, .compressionOpts] } file0 = (.ok (), s') :=
  C40_total_partial (P := fun _ => True)
    { env := envOk, prot := protOk, text := textOk, file := file0_ok, writable := rfl, free := free_new, path := by simp, options := ⟨[], rfl, by simp⟩
      kw := ⟨by simp [Kw.isSafe], by simp⟩
      cls := fun x o ho => goodCls (by
        have : ∀ o ∈ loop, o.cls ≠ .recover ∧ o.cls ≠ .recGroup ∧ o.cls ≠ .recData ∧ o.cls ≠ .nodeRef := by decide +kernel
        exact this o (List.mem_of_getElem? ho))
      graph := domain_of (by decide +kernel), obj := by decide +kernel, fuel := ⟨1, depth_of (by decide +kernel), by decide +kernel⟩ }

/-- arrays of strings and of objects (one of them contains itself), a masked array and a sparse matrix -/
def arrays : Heap :=
  [⟨.ndarray, .arr .int64 [2] [.i 1, .i 2]⟩, ⟨.ndarray, .sarr 3 [2, 1, 2] [ps "a", ps "", ps "abc", ps "a"]⟩, ⟨.int, .int 5⟩, ⟨.noneType, .none⟩,
   ⟨.ndarray, .oarr [2, 2] [2, 3, 4, 2]⟩, ⟨.masked, .masked .float64 [2] [.f .zero, .f .nan] (some [true, false])⟩,
   ⟨.csr, .sparse 0 0 0 [3, 2 ^ 40]⟩, ⟨.list, .seq [6, 5, 4, 1, 8]⟩, ⟨.ndarray, .oarr [] [7]⟩]

/-- they are in the domain -/
example : ∃ s', dumpTop { args arrays 7 with kw := [.compression] } file0 = (.ok (), s') :=
  C40_total_partial (P := fun _ => True)
    { env := envOk, prot := protOk, text := textOk, file := file0_ok, writable := rfl, free := free_new, path := by simp, options := ⟨[], rfl, by simp⟩
      kw := ⟨by simp [Kw.isSafe], by simp⟩
      cls := fun x o ho => goodCls (by
        have : ∀ o ∈ arrays, o.cls ≠ .recover ∧ o.cls ≠ .recGroup ∧ o.cls ≠ .recData ∧ o.cls ≠ .nodeRef := by decide +kernel
        exact this o (List.mem_of_getElem? ho))
      graph := domain_of (by decide +kernel), obj := by decide +kernel, fuel := ⟨3, depth_of (by decide +kernel), by decide +kernel⟩ }

end Ex

/-! ### the conditions of the domain are needed

Each is a graph of built-in objects that `dump` refuses. -/

/-- **violated**: a list of numbers, one of them beyond 64 bits, is refused (`OverflowError`) although the
numbers alone can be stored, and so can the list with `None` at the front -/
theorem C40_violated_int : Ex.raised (dumpTop (Ex.args [⟨.int, .int (2 ^ 63)⟩, ⟨.list, .seq [0]⟩] 1) Ex.file0).1 = some .overflowError ∧
    Ex.isOk (dumpTop (Ex.args [⟨.int, .int (2 ^ 63)⟩, ⟨.list, .seq [0]⟩] 0) Ex.file0).1 = true ∧
    Ex.isOk (dumpTop (Ex.args [⟨.int, .int (2 ^ 63)⟩, ⟨.noneType, .none⟩, ⟨.list, .seq [1, 0]⟩] 2) Ex.file0).1 = true := by decide +kernel

/-- **violated**: two NaN keys, which Python keeps apart, get the same name -/
theorem C40_violated_nan : Ex.raised (dumpTop (Ex.args [⟨.float, .float .nan⟩, ⟨.float, .float .nan⟩, ⟨.dict, .dict [(0, 0), (1, 0)]⟩] 2) Ex.file0).1 = some .valueError := by
  decide +kernel

/-- **violated**: a number followed by a nested list of different lengths is refused with numpy 1.24 or newer;
the other way round it is stored -/
theorem C40_violated_ragged :
    Ex.raised (dumpTop (Ex.args [⟨.int, .int 5⟩, ⟨.list, .seq []⟩, ⟨.list, .seq [0, 1]⟩, ⟨.list, .seq [0, 2]⟩] 3) Ex.file0).1 = some .valueError ∧
    Ex.isOk (dumpTop (Ex.args [⟨.int, .int 5⟩, ⟨.list, .seq []⟩, ⟨.list, .seq [1, 0]⟩, ⟨.list, .seq [2, 0]⟩] 3) Ex.file0).1 = true := by decide +kernel

end Verif
