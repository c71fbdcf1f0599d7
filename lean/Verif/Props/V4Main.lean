import Verif.Props.V4Round
/-!
# Objects in files of hickle 4.0 come back: datasets, containers, all objects
-/
namespace Verif.V4
open V3 (Nd SpK)

/-! ### datasets -/

theorem utf8Encode_of_ascii : ∀ {s : PyStr}, IsAscii s → utf8Encode s = some (ascii s)
  | [], _ => rfl
  | c :: s, h => by
    have hc : c < 128 := h c (by simp)
    have ih := utf8Encode_of_ascii (s := s) fun x hx => h x (by simp [hx])
    have : encodeCp c = some [UInt8.ofNat c] := by
      have he : encodable c = true := by simp [encodable]; omega
      unfold encodeCp; rw [if_pos he, if_pos hc]
    simp [utf8Encode, this, ih, ascii]

theorem decode_ascii {s : PyStr} (h : IsAscii s) : decode (ascii s) = .ok s := by
  rw [decode, utf8Decode_encode (utf8Encode_of_ascii h)]

theorem decodeAscii_ascii {s : PyStr} (h : IsAscii s) : decodeAscii (ascii s) = .ok s := by
  have h1 : ((ascii s).all fun c => decide (c < 128)) = true := by
    rw [List.all_eq_true]
    intro c hc
    obtain ⟨n, hn, rfl⟩ := List.mem_map.1 hc
    have := h n hn
    simp only [decide_eq_true_eq, UInt8.lt_iff_toNat_lt, toNat_ofNat_lt (show n < 256 by omega)]
    exact this
  have h2 : (ascii s).map UInt8.toNat = s := by
    rw [ascii, List.map_map]
    conv => rhs; rw [← List.map_id s]
    apply List.map_congr_left
    intro n hn
    exact toNat_ofNat_lt (by have := h n hn; omega)
  rw [decodeAscii, if_pos h1, h2]

theorem mapM_decode : ∀ {ss : List PyStr}, (∀ s ∈ ss, IsAscii s) → (ss.map ascii).mapM decodeAscii = .ok ss
  | [], _ => rfl
  | s :: ss, h => by
    rw [List.map_cons, List.mapM_cons, decodeAscii_ascii (h s (by simp)), mapM_decode fun t ht => h t (by simp [ht])]; rfl

theorem widest_ge : ∀ {ss : List PyStr}, 1 ≤ widest ss ∧ ∀ s ∈ ss, s.length ≤ widest ss
  | [] => ⟨by simp [widest], by simp⟩
  | s :: ss => by
    have ih := widest_ge (ss := ss)
    have : widest (s :: ss) = max s.length (widest ss) := rfl
    rw [this]
    refine ⟨by omega, fun t ht => ?_⟩
    cases ht with
    | head => omega
    | tail _ ht => have := ih.2 t ht; omega

/-- single characters -/
theorem singles : ∀ {ss : List PyStr}, (∀ s ∈ ss, s.length ≤ 1) → [] ∉ ss → (ss.map ascii).flatMap oneByte = ascii ss.flatten ∧
    (ss.flatten.map fun c => Val.str [c]) = ss.map .str
  | [], _, _ => ⟨rfl, rfl⟩
  | s :: ss, h, hn => by
    obtain ⟨i1, i2⟩ := singles (ss := ss) (fun t ht => h t (by simp [ht])) fun hm => hn (by simp [hm])
    match s, h s (by simp), hn with
    | [], _, hn => simp at hn
    | [c], _, _ =>
      constructor
      · rw [List.map_cons, List.flatMap_cons, i1]
        simp [ascii, oneByte]
      · simp [i2]
    | _ :: _ :: _, h, _ => simp at h

theorem num_mem {items : List Val} {vs : List NpVal} (h : items.mapM Val.num? = some vs) (hne : items ≠ []) : vs ≠ [] := by
  cases items with
  | nil => exact absurd rfl hne
  | cons x xs => obtain ⟨y, ys, _, _, rfl⟩ := mapM_cons_some h; simp

theorem wrap_not_masked {u : Option Nat} {v : Val} (h : v.isMasked = false) : (wrap u v).isMasked = false := by
  cases u with
  | none => exact h
  | some k => rfl

theorem cls_not_user (k : SK) : ∀ n, k.cls ≠ .user n := by cases k <;> simp [SK.cls]

theorem load_num {l : Libs} {name : PyStr} {v : Val} {x : NpVal} (h : v.num? = some x) :
    Loads l name v [(name, .dset (.array ⟨x.dt, [], [x]⟩) { type := some (.cls (numCls x).1), base := some (numCls x).2 })] := by
  cases v <;> simp [Val.num?] at h <;> subst h
  all_goals refine .dset rfl (.refl _) fun sib => ?_
  · rw [resolve_cls rfl rfl (by simp [numCls])]; simp only [loadData, numCls, fn_bool]; rfl
  · rw [resolve_cls rfl rfl (by simp [numCls])]; simp only [loadData, numCls, fn_int]; rfl
  · rw [resolve_cls rfl rfl (by simp [numCls])]; simp only [loadData, numCls, fn_float]; rfl
  · rw [resolve_cls rfl rfl (by simp [numCls])]; simp only [loadData, numCls, fn_complex]; rfl

theorem load_sarr {l : Libs} {name : PyStr} {w : Nat} {shape : List Nat} {data : List PyStr} (h1 : 1 ≤ w) (h2 : ∀ s ∈ data, IsAscii s ∧ widthOk w s = true)
    (h3 : data.length = shape.foldr (· * ·) 1) (hc : 1 < w ∨ shape = []) :
    Loads l name (.sarr w shape data)
        [(name, .dset (.fixed w shape (data.map ascii)) { type := some (.cls .ndarray), base := some "ndarray", npDtype := some (.u w) })] := by
  refine .dset rfl (.refl _) fun sib => ?_
  rw [resolve_cls rfl rfl (by simp)]
  simp only [loadData, fn_ndarray, loadNdarray]
  have hw : data.map (fixStr w) = data := by
    conv => rhs; rw [← List.map_id data]
    exact List.map_congr_left fun s hs => fixStr_of_width (h2 s hs).2
  by_cases hw1 : w ≤ 1
  · have hs : shape = [] := by rcases hc with h | h; (· omega); exact h
    subst hs
    match data, h3, h2, hw with
    | [s], _, h2, hw =>
      have : rawBytes [] ([s].map ascii) = ascii s := by simp [rawBytes]
      rw [if_pos hw1, this, decode_ascii (h2 s (by simp)).1]
      have := fixStr_of_width (h2 s (by simp)).2
      simp only [bind, Except.bind, this]
  · rw [if_neg hw1, mapM_decode fun s hs => (h2 s hs).1]
    simp only [bind, Except.bind, hw]

theorem load_strs {l : Libs} (hc : CtorOk l) {name : PyStr} {k : SK} {ss : List PyStr} (h2 : ∀ s ∈ ss, IsAscii s ∧ s.getLast? ≠ some 0)
    (he : k = .set → Elements l.env.opaqueEq (ss.map .str)) (hs : widest ss = 1 → [] ∉ ss) :
    Loads l name (.seq k (ss.map .str))
        [(name, .dset (.fixed (widest ss) [ss.length] (ss.map ascii)) { type := some (.cls k.cls), base := some k.base, strType := some "str" })] := by
  refine .dset rfl (.refl _) fun sib => ?_
  have ho : ofItems l (.cls k.cls) (ss.map .str) = .ok (.seq k (ss.map .str)) := ofItems_ok hc (u := none) (by simp) he
  rw [resolve_cls rfl rfl (cls_not_user k)]
  simp only [loadData, fn_seq, loadList, if_true]
  by_cases hw : widest ss > 1
  · rw [if_pos hw, mapM_decode fun s hs => (h2 s hs).1]
    exact ho
  · have h1 := widest_ge (ss := ss)
    obtain ⟨i1, i2⟩ := singles (ss := ss) (fun s hs => by have := h1.2 s hs; omega) (hs (by omega))
    have ha : IsAscii ss.flatten := fun c hc => by
      obtain ⟨s, hs, hcs⟩ := List.mem_flatten.1 hc
      exact (h2 s hs).1 c hcs
    have hr : rawBytes [ss.length] (ss.map ascii) = ascii ss.flatten := by simp only [rawBytes, i1]; simp
    rw [if_neg hw, hr, decode_ascii ha]
    simp only [bind, Except.bind]
    have : ofStr l (.cls k.cls) ss.flatten = ofItems l (.cls k.cls) (ss.flatten.map fun c => Val.str [c]) := by cases k <;> rfl
    rw [this, i2, ho]

theorem npBit_map (bs : List Bool) : (bs.map NpVal.b).mapM V3.npBit = some bs := by
  induction bs with
  | nil => rfl
  | cons b bs ih => rw [List.map_cons, List.mapM_cons, ih]; rfl

theorem load_masked {l : Libs} {name : PyStr} {a : Nd} {mask : List Bool} :
    Loads l name (.masked a mask)
        [(name, .dset (.array a) { type := some (.cls .masked), base := some "ndarray_masked_data", npDtype := some (.dt a.dt) }),
         (maskName name, .dset (.array ⟨.bool, a.shape, mask.map .b⟩) { type := some (.cls .ndarray), base := some "ndarray_masked_mask" })] := by
  refine ⟨_, _, .masked a mask, 1, rfl, .inr ⟨rfl, _, rfl, fun f sib hf => ?_⟩, .refl _, fun f hf sib hs => ?_⟩
  · obtain ⟨f, rfl⟩ : ∃ g, f = g + 1 := ⟨f - 1, by omega⟩
    rw [load, resolve_cls rfl rfl (by simp)]
    simp only [loadData, fn_mask]
  · obtain ⟨f, rfl⟩ : ∃ g, f = g + 1 := ⟨f - 1, by omega⟩
    have h1 := hs _ (List.mem_cons_of_mem _ (List.mem_cons_self ..))
    rw [load, resolve_cls rfl rfl (by simp)]
    simp only [loadData, fn_masked, loadMasked]
    rw [h1]
    simp only [maskOf, npBit_map, if_true]
    simp

/-! ### sparse matrices -/

theorem sp_ne : ps "indices" ≠ ps "data" ∧ ps "indptr" ≠ ps "data" ∧ ps "indptr" ≠ ps "indices" ∧ ps "shape" ≠ ps "data" ∧ ps "shape" ≠ ps "indices" ∧
    ps "shape" ≠ ps "indptr" := by decide

theorem loadAll_sparse {l : Libs} {rec : PyStr → Node → Except PyErr Val} (val : PyStr → Val) : ∀ (es : Members) (s : Sp),
    (∀ e ∈ es, e.1 ∈ spNames ∧ rec e.1 e.2 = .ok (val e.1)) →
    loadAll l rec (.sparse s) es = .ok (.sparse ⟨s.ty,
      if ps "data" ∈ es.map Prod.fst then some (val (ps "data")) else s.data,
      if ps "indices" ∈ es.map Prod.fst then some (val (ps "indices")) else s.indices,
      if ps "indptr" ∈ es.map Prod.fst then some (val (ps "indptr")) else s.indptr,
      if ps "shape" ∈ es.map Prod.fst then some (val (ps "shape")) else s.shape⟩)
  | [], s, _ => by simp [loadAll]
  | (n, nd) :: es, s, h => by
    obtain ⟨h1, h2⟩ := h (n, nd) (by simp)
    obtain ⟨a1, a2, a3, a4, a5, a6⟩ := sp_ne
    have ih := fun s => loadAll_sparse (l := l) (rec := rec) val es s fun e he => h e (by simp [he])
    rw [loadAll, h2]
    simp only [bind, Except.bind, append]
    simp only [spNames, List.mem_cons, List.not_mem_nil, or_false] at h1
    have key : ∀ (a b : PyStr) (x y : Option Val), (if a ∈ List.map Prod.fst ((b, nd) :: es) then x else y) = if a = b then x else if a ∈ List.map Prod.fst es then x else y := by
      intro a b x y
      by_cases hab : a = b
      · rw [if_pos hab, if_pos (by simp [hab])]
      · rw [if_neg hab]
        by_cases ha : a ∈ List.map Prod.fst es
        · rw [if_pos ha, if_pos (show a ∈ List.map Prod.fst ((b, nd) :: es) from List.mem_cons_of_mem _ ha)]
        · rw [if_neg ha, if_neg (show ¬ a ∈ List.map Prod.fst ((b, nd) :: es) from fun h => (List.mem_cons.1 h).elim hab ha)]
    simp only [key]
    rcases h1 with h | h | h | h <;> subst h
    · rw [if_pos rfl]
      refine (ih _).trans ?_
      simp only [if_pos, if_neg a1, if_neg a2, if_neg a4]; simp
    · rw [if_neg a1, if_pos rfl]
      refine (ih _).trans ?_
      simp only [if_neg (Ne.symm a1), if_neg a3, if_neg a5]; simp
    · rw [if_neg a2, if_neg a3, if_pos rfl]
      refine (ih _).trans ?_
      simp only [if_neg (Ne.symm a2), if_neg (Ne.symm a3), if_neg a6]; simp
    · rw [if_neg a4, if_neg a5, if_neg a6, if_pos rfl]
      refine (ih _).trans ?_
      simp only [if_neg (Ne.symm a4), if_neg (Ne.symm a5), if_neg (Ne.symm a6)]; simp

theorem natOf_shape (shape : List Nat) : ((shape.map fun n => NpVal.i (Int.ofNat n)).map Val.np).mapM natOf = some shape := by
  induction shape with
  | nil => rfl
  | cons n shape ih =>
    have : natOf (.np (.i (Int.ofNat n))) = some n := by simp [natOf]
    rw [List.map_cons, List.map_cons, List.mapM_cons, ih, this]; rfl

theorem load_sparse {l : Libs} (hl : Lists l) {name : PyStr} {k : SpK} {d ix ip : Nd} {shape : List Nat} :
    Loads l name (.sparse k d ix ip shape) [(name, .group { type := some .returnFirst, base := some (spCls k).2 }
        [(ps "data", .dset (.array d) { type := some (.cls (spCls k).1), base := some (spCls k).2 }),
         (ps "indices", .dset (.array ix) { type := some .lost, base := some ((spCls k).2 ++ "_indices") }),
         (ps "indptr", .dset (.array ip) { type := some .lost, base := some ((spCls k).2 ++ "_indptr") }),
         (ps "shape", .dset (.array ⟨.int64, [shape.length], shape.map fun n => NpVal.i (Int.ofNat n)⟩) { type := some .lost, base := some ((spCls k).2 ++ "_shape") })])] := by
  refine ⟨_, _, .sparse k d ix ip shape, 2, rfl, .inl ⟨rfl, rfl⟩, .refl _, fun f hf sib _ => ?_⟩
  obtain ⟨f, rfl⟩ : ∃ g, f = g + 2 := ⟨f - 2, by omega⟩
  generalize hms : [(ps "data", Node.dset (.array d) { type := some (.cls (spCls k).1), base := some (spCls k).2 }),
         (ps "indices", .dset (.array ix) { type := some .lost, base := some ((spCls k).2 ++ "_indices") }),
         (ps "indptr", .dset (.array ip) { type := some .lost, base := some ((spCls k).2 ++ "_indptr") }),
         (ps "shape", .dset (.array ⟨.int64, [shape.length], shape.map fun n => NpVal.i (Int.ofNat n)⟩) { type := some .lost, base := some ((spCls k).2 ++ "_shape") })] = ms
  obtain ⟨a1, a2, a3, a4, a5, a6⟩ := sp_ne
  have hp := hl ms
  have hin : ∀ e, e ∈ l.order ms ↔ e ∈ ms := fun e => hp.mem_iff
  have hnames : ∀ e ∈ l.order ms, e.1 ∈ spNames := by
    intro e he
    rw [hin, ← hms] at he
    simp only [List.mem_cons, List.not_mem_nil, or_false] at he
    rcases he with rfl | rfl | rfl | rfl <;> simp [spNames]
  have hfil : ((l.order ms).filter fun e => spNames.contains e.1) = l.order ms := by
    rw [List.filter_eq_self]
    intro e he
    simpa using hnames e he
  have hdist : (l.order ms).Pairwise fun e e' => e.1 ≠ e'.1 := by
    rw [hp.pairwise_iff fun {_ _} h => Ne.symm h, ← hms]
    simp [Ne.symm a1, Ne.symm a2, Ne.symm a3, Ne.symm a4, Ne.symm a5, Ne.symm a6]
  have hd := Assoc.get?_of_mem hdist (p := (ps "data", _)) ((hin _).2 (by rw [← hms]; exact List.mem_cons_self ..))
  let val : PyStr → Val := fun n => if n = ps "data" then .arr d else if n = ps "indices" then .arr ix else if n = ps "indptr" then .arr ip else
    .seq .tuple ((shape.map fun n => NpVal.i (Int.ofNat n)).map .np)
  have hval : ∀ e ∈ (l.order ms).map (fun e => (e.1, redirect e.1 e.2)), e.1 ∈ spNames ∧ load l (f + 1) ms e.1 e.2 = .ok (val e.1) := by
    intro e he
    obtain ⟨e0, h0, rfl⟩ := List.mem_map.1 he
    refine ⟨hnames e0 h0, ?_⟩
    rw [hin, ← hms] at h0
    simp only [List.mem_cons, List.not_mem_nil, or_false] at h0
    rcases h0 with rfl | rfl | rfl | rfl
    · simp only [redirect, if_neg (Ne.symm a4)]
      rw [load, resolve_cls rfl rfl (by simp)]
      simp only [loadData, fn_ndarray, loadNdarray, DSet.dt?, Option.none_or, val, if_true]
      simp
    · simp only [redirect, if_neg (Ne.symm a5)]
      rw [load, resolve_cls rfl rfl (by simp)]
      simp only [loadData, fn_ndarray, loadNdarray, DSet.dt?, Option.none_or, val, if_neg a1, if_true]
      simp
    · simp only [redirect, if_neg (Ne.symm a6)]
      rw [load, resolve_cls rfl rfl (by simp)]
      simp only [loadData, fn_ndarray, loadNdarray, DSet.dt?, Option.none_or, val, if_neg a2, if_neg a3, if_true]
      simp
    · simp only [redirect, if_true]
      rw [load, resolve_cls rfl rfl (by simp)]
      simp only [loadData, fn_tuple, loadList, val, if_neg a4, if_neg a5, if_neg a6, List.length_map, and_self, if_true]
      rfl
  have hres : resolve l (.group { type := some .returnFirst, base := some (spCls k).2 } ms) = ⟨.returnFirst, (spCls k).2⟩ := rfl
  have hall := loadAll_sparse (l := l) (rec := load l (f + 1) ms) val ((l.order ms).map fun e => (e.1, redirect e.1 e.2)) { ty := .cls (spCls k).1 } hval
  have hmem : ∀ n ∈ spNames, n ∈ ((l.order ms).map fun e => (e.1, redirect e.1 e.2)).map Prod.fst := by
    intro n hn
    rw [List.map_map]
    have : n ∈ ms.map Prod.fst := by rw [← hms]; simpa [spNames] using hn
    obtain ⟨e, he, rfl⟩ := List.mem_map.1 this
    exact List.mem_map.2 ⟨e, (hin e).2 he, rfl⟩
  rw [if_pos (hmem _ (by simp [spNames])), if_pos (hmem _ (by simp [spNames])), if_pos (hmem _ (by simp [spNames])), if_pos (hmem _ (by simp [spNames]))] at hall
  rw [load, hres]
  simp only [mkCont, cont_sparse, bind, Except.bind, filter, if_true, hfil, hd, Node.attrs, hall]
  have hk : spKind (.cls (spCls k).1) = some k := by cases k <;> rfl
  have v1 : val (ps "data") = .arr d := if_pos rfl
  have v2 : val (ps "indices") = .arr ix := by simp only [val, if_neg a1, if_true]
  have v3 : val (ps "indptr") = .arr ip := by simp only [val, if_neg a2, if_neg a3, if_true]
  have v4 : val (ps "shape") = .seq .tuple ((shape.map fun n => NpVal.i (Int.ofNat n)).map .np) := by simp only [val, if_neg a4, if_neg a5, if_neg a6]
  simp only [convert, v1, v2, v3, v4, hk, natOf_shape]

/-! ### groups -/

/-- the members of a sequence -/
structure Group (l : Libs) (items : List Val) (mss : List Members) (ts : List (Node × Members × Val)) (f0 : Nat) : Prop where
  len : ts.length = items.length
  pos : 1 ≤ f0
  mem : ∀ (i : Nat) t, ts[i]? = some t → mss[i]? = some ((V3.dataName i, t.1) :: t.2.1)
  rest : ∀ (i : Nat) t x, ts[i]? = some t → items[i]? = some x → Rest l (V3.dataName i) x t.2.1
  same : ∀ (i : Nat) t x, ts[i]? = some t → items[i]? = some x → Same x t.2.2
  load : ∀ f, f0 ≤ f → ∀ (i : Nat) t, ts[i]? = some t → ∀ sib : Members,
    (∀ e ∈ (V3.dataName i, t.1) :: t.2.1, Assoc.get? sib e.1 = some e.2) → load l f sib (V3.dataName i) t.1 = .ok t.2.2

theorem Group.make {l : Libs} {items : List Val} {mss : List Members} (hl : mss.length = items.length)
    (h : ∀ (i : Nat) (x : Val) (m : Members), items[i]? = some x → mss[i]? = some m → Loads l (V3.dataName i) x m) : ∃ ts f0, Group l items mss ts f0 := by
  have h1 : ∀ i, i < items.length → ∃ t : Node × Members × Val, ∃ x m, items[i]? = some x ∧ mss[i]? = some m ∧ m = (V3.dataName i, t.1) :: t.2.1 ∧
      Rest l (V3.dataName i) x t.2.1 ∧ Same x t.2.2 ∧ ∃ f0, ∀ f, f0 ≤ f → ∀ sib : Members, (∀ e ∈ m, Assoc.get? sib e.1 = some e.2) →
        V4.load l f sib (V3.dataName i) t.1 = .ok t.2.2 := by
    intro i hi
    obtain ⟨x, hx⟩ := getElem?_some_of_lt hi
    obtain ⟨m, hm⟩ := getElem?_some_of_lt (hl ▸ hi)
    obtain ⟨node, rest, w, f0, e1, e2, e3, e4⟩ := h i x m hx hm
    exact ⟨(node, rest, w), x, m, hx, hm, e1, e2, e3, f0, e4⟩
  obtain ⟨ts, hn, ht⟩ := choose_list h1
  have h2 : ∀ i, i < items.length → ∃ f0, ∀ f, f0 ≤ f → ∀ t, ts[i]? = some t → ∀ sib : Members,
      (∀ e ∈ (V3.dataName i, t.1) :: t.2.1, Assoc.get? sib e.1 = some e.2) → V4.load l f sib (V3.dataName i) t.1 = .ok t.2.2 := by
    intro i hi
    obtain ⟨t, hti⟩ := getElem?_some_of_lt (xs := ts) (hn ▸ hi)
    obtain ⟨x, m, _, _, hm, _, _, f0, h4⟩ := ht i t hti
    refine ⟨f0, fun f hf t' ht' sib hs => ?_⟩
    rw [hti] at ht'; cases ht'
    exact h4 f hf sib (by rw [hm]; exact hs)
  obtain ⟨f0, hf0⟩ := ev_all h2
  refine ⟨ts, max 1 f0, hn, by omega, ?_, ?_, ?_, ?_⟩
  · intro i t hti
    obtain ⟨x, m, _, hm, he, _⟩ := ht i t hti
    rw [hm, he]
  · intro i t x hti hx
    obtain ⟨x', m, hx', _, _, hr, _⟩ := ht i t hti
    rw [hx] at hx'; cases hx'; exact hr
  · intro i t x hti hx
    obtain ⟨x', m, hx', _, _, _, hs, _⟩ := ht i t hti
    rw [hx] at hx'; cases hx'; exact hs
  · intro f hf i t hti sib hs
    exact hf0 f (by omega) i (hn ▸ lt_of_getElem? hti) t hti sib hs

/-- what a member is: an item or the mask of one -/
theorem Group.cases {l : Libs} {items : List Val} {mss : List Members} {ts : List (Node × Members × Val)} {f0 : Nat} (g : Group l items mss ts f0) (hl : mss.length = items.length)
    {i : Nat} {m : Members} (hm : mss[i]? = some m) : ∃ t, ts[i]? = some t ∧ m = (V3.dataName i, t.1) :: t.2.1 ∧
      (t.2.1 = [] ∨ ∃ mn, t.2.1 = [(maskName (V3.dataName i), mn)] ∧ ∀ f sib, 1 ≤ f → V4.load l f sib (maskName (V3.dataName i)) mn = .ok nobody) := by
  have hi : i < items.length := hl ▸ lt_of_getElem? hm
  obtain ⟨t, ht⟩ := getElem?_some_of_lt (xs := ts) (g.len ▸ hi)
  obtain ⟨x, hx⟩ := getElem?_some_of_lt hi
  have h1 := g.mem i t ht
  rw [hm] at h1; cases h1
  refine ⟨t, ht, rfl, ?_⟩
  rcases g.rest i t x ht hx with ⟨_, h⟩ | ⟨_, mn, h, h'⟩
  · exact .inl h
  · exact .inr ⟨mn, h, h'⟩

theorem Group.distinct {l : Libs} {items : List Val} {mss : List Members} {ts : List (Node × Members × Val)} {f0 : Nat} (g : Group l items mss ts f0) (hl : mss.length = items.length) :
    mss.flatten.Pairwise fun e e' => e.1 ≠ e'.1 := by
  rw [List.pairwise_flatten]
  constructor
  · intro m hm
    obtain ⟨i, hi⟩ := List.mem_iff_getElem?.1 hm
    obtain ⟨t, _, rfl, h | ⟨mn, h, _⟩⟩ := g.cases hl hi
    · rw [h]; simp
    · rw [h]; simp [data_ne_mask]
  · rw [List.pairwise_iff_getElem]
    intro i j hi hj hij e he e' he' heq
    obtain ⟨t, _, e1, h1⟩ := g.cases hl (i := i) (m := mss[i]) (by simp [hi])
    obtain ⟨t', _, e2, h2⟩ := g.cases hl (i := j) (m := mss[j]) (by simp [hj])
    rw [e1] at he
    rw [e2] at he'
    have hne : i ≠ j := by omega
    rcases List.mem_cons.1 he with rfl | he <;> rcases List.mem_cons.1 he' with rfl | he'
    · exact hne (dataName_inj heq)
    · rcases h2 with h2 | ⟨mn, h2, _⟩
      · rw [h2] at he'; simp at he'
      · rw [h2] at he'; simp at he'; subst he'; exact data_ne_mask _ _ heq
    · rcases h1 with h1 | ⟨mn, h1, _⟩
      · rw [h1] at he; simp at he
      · rw [h1] at he; simp at he; subst he; exact data_ne_mask _ _ heq.symm
    · rcases h1 with h1 | ⟨mn, h1, _⟩
      · rw [h1] at he; simp at he
      · rw [h1] at he; simp at he; subst he
        rcases h2 with h2 | ⟨mn', h2, _⟩
        · rw [h2] at he'; simp at he'
        · rw [h2] at he'; simp at he'; subst he'
          exact hne (dataName_inj (maskName_inj heq))

/-- how a member loads -/
theorem Group.member {l : Libs} {items : List Val} {mss : List Members} {ts : List (Node × Members × Val)} {f0 : Nat} (g : Group l items mss ts f0) (hl : mss.length = items.length)
    {f : Nat} (hf : f0 ≤ f) {e : PyStr × Node} (he : e ∈ mss.flatten) :
    (∃ (i : Nat) (t : Node × Members × Val), ts[i]? = some t ∧ e = (V3.dataName i, t.1) ∧ V4.load l f mss.flatten e.1 e.2 = .ok t.2.2) ∨
    (trailing e.1 = none ∧ V4.load l f mss.flatten e.1 e.2 = .ok nobody ∧ ∃ (i : Nat) (t : Node × Members × Val), ts[i]? = some t ∧ t.2.1 = [e]) := by
  obtain ⟨m, hm, hem⟩ := List.mem_flatten.1 he
  obtain ⟨i, hi⟩ := List.mem_iff_getElem?.1 hm
  obtain ⟨t, ht, e1, h⟩ := g.cases hl hi
  have hget : ∀ e ∈ m, Assoc.get? mss.flatten e.1 = some e.2 := fun e' he' => Assoc.get?_of_mem (g.distinct hl) (List.mem_flatten.2 ⟨m, hm, he'⟩)
  rw [e1] at hem
  rcases List.mem_cons.1 hem with rfl | hem
  · exact .inl ⟨i, t, ht, rfl, g.load f hf i t ht _ (by rw [← e1]; exact hget)⟩
  · rcases h with h | ⟨mn, h, h'⟩
    · rw [h] at hem; simp at hem
    · rw [h] at hem; simp at hem; subst hem
      exact .inr ⟨trailing_mask _, h' f _ (by have := g.pos; omega), i, t, ht, h⟩

/-- the values of the items, in order -/
theorem Group.fold {l : Libs} (hls : Lists l) {items : List Val} {mss : List Members} {ts : List (Node × Members × Val)} {f0 : Nat} (g : Group l items mss ts f0) (hl : mss.length = items.length)
    {f : Nat} (hf : f0 ≤ f) : loadAll l (V4.load l f mss.flatten) (.list []) (l.order mss.flatten) = .ok (.list (ts.map fun t => t.2.2)) := by
  rw [loadAll_list]
  have hmem : ∀ e, e ∈ l.order mss.flatten ↔ e ∈ mss.flatten := fun e => (hls _).mem_iff
  rw [fold_place_nil (hole := nobody) (isHole := Val.isNobody) rfl (fun e : PyStr × Node => trailing e.1) (ts.map fun t => t.2.2)]
  · rfl
  · intro e he c
    rcases g.member hl hf ((hmem e).1 he) with ⟨i, t, ht, rfl, h⟩ | ⟨h1, h2, _⟩
    · refine .inl ⟨i, t.2.2, trailing_data i, by simp [ht], ?_⟩
      simp only [h, Except.bind, listAppend, trailing_data]
    · exact .inr ⟨h1, by simp only [h2, Except.bind, listAppend, h1]; rfl⟩
  · have hd : (l.order mss.flatten).Pairwise fun e e' => e.1 ≠ e'.1 := ((hls _).pairwise_iff fun {_ _} h => Ne.symm h).2 (g.distinct hl)
    refine hd.imp_of_mem fun {a b} ha hb hab i h1 h2 => ?_
    rcases g.member hl hf ((hmem a).1 ha) with ⟨j, t, ht, rfl, h⟩ | ⟨h, _⟩
    · rcases g.member hl hf ((hmem b).1 hb) with ⟨j', t', ht', rfl, h'⟩ | ⟨h', _⟩
      · simp only [trailing_data] at h1 h2
        cases h1; cases h2; exact hab rfl
      · rw [h'] at h2; simp at h2
    · rw [h] at h1; simp at h1
  · intro i hi
    simp only [List.length_map] at hi
    obtain ⟨t, ht⟩ := getElem?_some_of_lt hi
    refine ⟨(V3.dataName i, t.1), (hmem _).2 (List.mem_flatten.2 ⟨_, List.mem_iff_getElem?.2 ⟨i, g.mem i t ht⟩, by simp⟩), trailing_data i⟩

theorem zip_same {items : List Val} {ts : List (Node × Members × Val)} (hl : ts.length = items.length)
    (h : ∀ (i : Nat) t x, ts[i]? = some t → items[i]? = some x → Same x t.2.2) (k : SK) : Same (.seq k items) (.seq k (ts.map fun t => t.2.2)) := by
  refine .seq k (by simp [hl]) fun i x y hx hy => ?_
  rw [List.getElem?_map] at hy
  cases ht : ts[i]? with
  | none => rw [ht] at hy; simp at hy
  | some t => rw [ht] at hy; simp at hy; subst hy; exact h i t x ht hx

theorem filterMap_congr' {α β : Type} {f g : α → Option β} : ∀ {xs : List α}, (∀ x ∈ xs, f x = g x) → xs.filterMap f = xs.filterMap g
  | [], _ => rfl
  | x :: xs, h => by rw [List.filterMap_cons, List.filterMap_cons, h x (by simp), filterMap_congr' fun y hy => h y (by simp [hy])]

theorem load_items {l : Libs} (hls : Lists l) (hc : CtorOk l) {name : PyStr} {u : Option Nat} {k : SK} {items : List Val} {mss : List Members} (hl : mss.length = items.length)
    (hu : u ≠ none → k ≠ .tuple) (hi : ∀ k, u = some k → (l.env.u k).importable = true) (he : k = .set → Elements l.env.opaqueEq items)
    (h : ∀ (i : Nat) (x : Val) (m : Members), items[i]? = some x → mss[i]? = some m → Loads l (V3.dataName i) x m) :
    Loads l name (wrap u (.seq k items)) [(name, .group { type := some (own u k.cls), base := some k.base } mss.flatten)] := by
  obtain ⟨ts, f0, g⟩ := Group.make hl h
  have hres : ∀ ms, resolve l (.group { type := some (own u k.cls), base := some k.base } ms) = ⟨own u k.cls, k.base⟩ := fun ms =>
    resolve_own rfl rfl (cls_not_user k) hi
  by_cases hk : k = .set
  · subst hk
    have he := he rfl
    have hsingle : ∀ (i : Nat) t, ts[i]? = some t → t.2.1 = [] := by
      intro i t ht
      obtain ⟨x, hx⟩ := getElem?_some_of_lt (xs := items) (i := i) (g.len ▸ lt_of_getElem? ht)
      rcases g.rest i t x ht hx with ⟨_, h⟩ | ⟨h, _⟩
      · exact h
      · have := he.1 x (List.mem_of_getElem? hx)
        cases x <;> simp [Val.isMasked] at h
        simp [Val.view] at this
    have hflat : mss.flatten = (List.range items.length).filterMap fun i => ts[i]?.map fun t => (V3.dataName i, t.1) := by
      have h1 : mss = (List.range items.length).map fun i => match ts[i]? with | some t => [(V3.dataName i, t.1)] | none => [] := by
        apply List.ext_getElem?
        intro i
        by_cases hi' : i < items.length
        · obtain ⟨t, ht⟩ := getElem?_some_of_lt (xs := ts) (g.len ▸ hi')
          rw [g.mem i t ht, List.getElem?_map, List.getElem?_range hi', hsingle i t ht]
          simp [ht]
        · rw [List.getElem?_eq_none (by omega), List.getElem?_eq_none (by simp; omega)]
      rw [h1, ← List.flatMap_def]
      generalize List.range items.length = r
      induction r with
      | nil => rfl
      | cons i r ih =>
        rw [List.flatMap_cons, List.filterMap_cons, ih]
        cases ts[i]? <;> rfl
    let ix : PyStr × Node → Nat := fun e => (trailing e.1).getD 0
    let val : PyStr × Node → Val := fun e => (ts[ix e]?.map fun t => t.2.2).getD .none
    let src : PyStr × Node → Val := fun e => items[ix e]?.getD .none
    have hsrc : mss.flatten.map src = items := by
      rw [hflat, List.map_filterMap]
      have : ∀ i ∈ List.range items.length, (ts[i]?.map fun t => (V3.dataName i, t.1)).map src = items[i]? := by
        intro i hi'
        have hi' : i < items.length := by simpa using hi'
        obtain ⟨t, ht⟩ := getElem?_some_of_lt (xs := ts) (g.len ▸ hi')
        obtain ⟨x, hx⟩ := getElem?_some_of_lt hi'
        simp [ht, src, ix, trailing_data, hx]
      rw [filterMap_congr' this]
      have key : ∀ xs : List Val, (List.range xs.length).filterMap (fun i => xs[i]?) = xs := by
        intro xs
        have : (List.range xs.length).filterMap (fun i => xs[i]?) = (List.range xs.length).map fun i => xs[i]?.getD .none := by
          rw [← List.filterMap_eq_map]
          apply filterMap_congr'
          intro i hi'
          have hi' : i < xs.length := by simpa using hi'
          obtain ⟨x, hx⟩ := getElem?_some_of_lt hi'
          simp [hx]
        rw [this]
        apply List.ext_getElem?
        intro i
        by_cases hi' : i < xs.length
        · rw [List.getElem?_map, List.getElem?_range hi']; obtain ⟨x, hx⟩ := getElem?_some_of_lt hi'; simp [hx]
        · rw [List.getElem?_eq_none (by simp; omega), List.getElem?_eq_none (by omega)]
      exact key items
    have hmem : ∀ e, e ∈ l.order mss.flatten ↔ e ∈ mss.flatten := fun e => (hls _).mem_iff
    have hpair : ∀ e ∈ mss.flatten, ∃ (i : Nat) (t : Node × Members × Val), ts[i]? = some t ∧ e = (V3.dataName i, t.1) := by
      intro e he'
      rw [hflat] at he'
      obtain ⟨i, _, h2⟩ := List.mem_filterMap.1 he'
      cases ht : ts[i]? with
      | none => rw [ht] at h2; simp at h2
      | some t => rw [ht] at h2; simp at h2; exact ⟨i, t, ht, h2.symm⟩
    have hsame : ∀ e ∈ l.order mss.flatten, Same (src e) (val e) := by
      intro e he'
      obtain ⟨i, t, ht, rfl⟩ := hpair e ((hmem e).1 he')
      obtain ⟨x, hx⟩ := getElem?_some_of_lt (xs := items) (i := i) (g.len ▸ lt_of_getElem? ht)
      have := g.same i t x ht hx
      simpa [src, val, ix, trailing_data, ht, hx] using this
    have hperm : ((l.order mss.flatten).map src).Perm items := by
      have := (hls mss.flatten).map src
      rwa [hsrc] at this
    have hview : ((l.order mss.flatten).map val).map Val.view = ((l.order mss.flatten).map src).map Val.view := by
      rw [List.map_map, List.map_map]
      exact List.map_congr_left fun e he' => (hsame e he').view
    have helem : Elements l.env.opaqueEq ((l.order mss.flatten).map val) := .of_view hview (.perm hperm he)
    refine ⟨_, _, wrap u (.seq .set ((l.order mss.flatten).map val)), f0 + 1, rfl, .inl ⟨wrap_not_masked rfl, rfl⟩, .wrap ?_, fun f hf sib _ => ?_⟩
    · refine .set hperm (.seq .set (by simp) fun i x y hx hy => ?_)
      rw [List.getElem?_map] at hx hy
      cases ho : (l.order mss.flatten)[i]? with
      | none => rw [ho] at hx; simp at hx
      | some e =>
        rw [ho] at hx hy; simp at hx hy; subst hx; subst hy
        exact hsame e (List.mem_of_getElem? ho)
    · obtain ⟨f, rfl⟩ : ∃ g, f = g + 1 := ⟨f - 1, by omega⟩
      have hall := loadAll_set (l := l) (rec := load l f mss.flatten) (val := val) (l.order mss.flatten) [] (fun e he' => by
        rcases g.member hl (f := f) (by omega) ((hmem e).1 he') with ⟨i, t, ht, rfl, h⟩ | ⟨_, _, i, t, ht, h⟩
        · rw [h]; simp [val, ix, trailing_data, ht]
        · rw [hsingle i t ht] at h; simp at h) (by simpa using helem)
      rw [load, hres]
      simp only [mkCont, SK.base, cont_set, bind, Except.bind, filter, hall, convert, List.nil_append]
      cases u with
      | none => rfl
      | some n => simp only [own, wrap, hc n]
  · refine ⟨_, _, wrap u (.seq k (ts.map fun t => t.2.2)), f0 + 1, rfl, .inl ⟨wrap_not_masked rfl, rfl⟩, .wrap (zip_same g.len g.same k), fun f hf sib _ => ?_⟩
    obtain ⟨f, rfl⟩ : ∃ g, f = g + 1 := ⟨f - 1, by omega⟩
    rw [load, hres]
    have hm : mkCont ⟨own u k.cls, k.base⟩ = .ok (.list []) := by
      cases k with
      | list => simp only [mkCont, SK.base, cont_list]
      | tuple => simp only [mkCont, SK.base, cont_tuple]
      | set => exact absurd rfl hk
    simp only [hm, bind, Except.bind, filter, g.fold hls hl (f := f) (by omega), convert]
    refine ofItems_ok hc (fun h => ?_) fun h => absurd h hk
    cases k with
    | list => rfl
    | tuple => exact absurd rfl (hu h)
    | set => exact absurd rfl hk

theorem load_objarr {l : Libs} (hls : Lists l) {name : PyStr} {v : Val} {ms : Members} (hv : v.isSeq = false) (h : Loads l (ps "data") v ms) :
    Loads l name (.oarr [] [v]) [(name, .group { type := some .lambda, base := some "ndarray", npDtype := some .o } ms)] := by
  obtain ⟨node, rest, w, f0, rfl, hr, hs, hf0⟩ := h
  have hrest : rest = [] := by
    rcases hr with ⟨_, h⟩ | ⟨h, _⟩
    · exact h
    · cases v <;> simp [Val.isMasked] at h
      simp [Val.isSeq] at hv
  subst hrest
  refine ⟨_, _, .oarr [] [w], f0 + 1, rfl, .inl ⟨rfl, rfl⟩, .oarr [] rfl fun i x y hx hy => ?_, fun f hf sib _ => ?_⟩
  · match i with
    | 0 => simp at hx hy; subst hx; subst hy; exact hs
    | i + 1 => simp at hx
  · obtain ⟨f, rfl⟩ : ∃ g, f = g + 1 := ⟨f - 1, by omega⟩
    have hord : l.order [(ps "data", node)] = [(ps "data", node)] := List.perm_singleton.1 (hls _)
    have hld := hf0 f (by omega) [(ps "data", node)] (by simp [Assoc.get?])
    have hres : ∀ ms, resolve l (.group { type := some .lambda, base := some "ndarray", npDtype := some .o } ms) = ⟨.lambda, "ndarray"⟩ := fun _ => rfl
    rw [load, hres]
    simp only [mkCont, cont_ndarray, bind, Except.bind, filter, hord, loadAll, hld, append, or_true, if_true, convert]
    rw [hs.isSeq, hv]; rfl

/-- the value of an entry of a dictionary -/
theorem load_item {l : Libs} (hls : Lists l) {v : Val} {ms : Members} (hb : v.isMasked = true → ByName l) (h : Loads l (ps "data") v ms) :
    ∃ w f0, Same v w ∧ ∀ f, f0 ≤ f → ∀ sib name at', at'.type = none → at'.base = some "dict_item" → load l f sib name (.group at' ms) = .ok w := by
  obtain ⟨node, rest, w, f0, rfl, hr, hs, hf0⟩ := h
  refine ⟨w, f0 + 2, hs, fun f hf sib name at' h1 h2 => ?_⟩
  obtain ⟨f, rfl⟩ : ∃ g, f = g + 1 := ⟨f - 1, by omega⟩
  have hres : ∀ ms, resolve l (.group at' ms) = ⟨.cls .object, "dict_item"⟩ := fun ms => by simp [resolve, Node.attrs, h1, h2]
  rw [load, hres]
  simp only [mkCont, cont_item, bind, Except.bind, filter]
  rcases hr with ⟨_, rfl⟩ | ⟨hm, mn, rfl, hn⟩
  · have hord : l.order [(ps "data", node)] = [(ps "data", node)] := List.perm_singleton.1 (hls _)
    have hld := hf0 f (by omega) [(ps "data", node)] (by simp [Assoc.get?])
    simp only [hord, loadAll, hld, append, bind, Except.bind, convert, List.nil_append]
  · have hne : maskName (ps "data") ≠ ps "data" := by decide
    have hord : l.order [(ps "data", node), (maskName (ps "data"), mn)] = [(ps "data", node), (maskName (ps "data"), mn)] := by
      have hp := hls [(ps "data", node), (maskName (ps "data"), mn)]
      have hsort := hb hm [(ps "data", node), (maskName (ps "data"), mn)]
      generalize l.order [(ps "data", node), (maskName (ps "data"), mn)] = o at hp hsort
      have hlen := hp.length_eq
      match o, hlen with
      | [a, b], _ =>
        have ha : a ∈ [(ps "data", node), (maskName (ps "data"), mn)] := hp.mem_iff.1 (by simp)
        have hb' : b ∈ [(ps "data", node), (maskName (ps "data"), mn)] := hp.mem_iff.1 (by simp)
        have hd : a.1 ≠ b.1 := by
          have : ([a, b] : Members).Pairwise fun e e' => e.1 ≠ e'.1 := (hp.pairwise_iff fun {_ _} h => Ne.symm h).2 (by simp [Ne.symm hne])
          simpa using this
        simp only [List.mem_cons, List.not_mem_nil, or_false] at ha hb'
        rcases ha with rfl | rfl
        · rcases hb' with rfl | rfl
          · exact absurd rfl hd
          · rfl
        · rcases hb' with rfl | rfl
          · have : V3.textLe (maskName (ps "data")) (ps "data") = true := by simpa using hsort
            exact absurd this (by decide)
          · exact absurd rfl hd
    have hld := hf0 f (by omega) [(ps "data", node), (maskName (ps "data"), mn)] (by
      intro e he
      exact Assoc.get?_of_mem (by simp [Ne.symm hne]) he)
    have hmk := hn f [(ps "data", node), (maskName (ps "data"), mn)] (by omega)
    simp only [hord, loadAll, hld, hmk, append, bind, Except.bind, convert, List.nil_append, List.cons_append]

theorem load_dict {l : Libs} (hls : Lists l) (hx : TextOk l.env) (hc : CtorOk l) {name : PyStr} {u : Option Nat} {es : List (V3.PV × Val)} {mss : List Members} {ms : Members}
    (h1 : mss.length = es.length) (h2 : ms.length = es.length)
    (h3 : ∀ (i : Nat) (e : V3.PV × Val) (m : Members) (n : PyStr × Node), es[i]? = some e → mss[i]? = some m → ms[i]? = some n →
        V3.reprPV l.v3 e.1 = .ok n.1 ∧ ∃ b, keyBase e.1 = some b ∧ n.2 = .group { base := some "dict_item", keyBase := some b, keyIdx := some i } m)
    (h4 : ∀ (i : Nat) (e : V3.PV × Val) (m : Members), es[i]? = some e → mss[i]? = some m → Loads l (ps "data") e.2 m)
    (hi : ∀ k, u = some k → (l.env.u k).importable = true) (hk : ∀ e ∈ es, Key l e.1) (hd : V3.Differ l.env.opaqueEq (es.map Prod.fst))
    (hb : (∃ e ∈ es, e.2.isMasked = true) → ByName l) :
    Loads l name (wrap u (.dict es)) [(name, .group { type := some (own u .dict), base := some "dict" } ms)] := by
  have g1 : ∀ i, i < es.length → ∃ w : Val, ∃ e n, es[i]? = some e ∧ ms[i]? = some n ∧ Same e.2 w ∧ n.2.attrs.keyIdx = some i ∧
      (∃ b, n.2.attrs.keyBase = some b ∧ b ≠ "key_value" ∧ loadKey l b n.1 = .ok e.1) ∧ ∃ f0, ∀ f, f0 ≤ f → ∀ sib, load l f sib n.1 n.2 = .ok w := by
    intro i hi'
    obtain ⟨e, he⟩ := getElem?_some_of_lt hi'
    obtain ⟨m, hm⟩ := getElem?_some_of_lt (h1 ▸ hi')
    obtain ⟨n, hn⟩ := getElem?_some_of_lt (h2 ▸ hi')
    obtain ⟨e1, b, e2, e3⟩ := h3 i e m n he hm hn
    obtain ⟨w, f0, hs, hf0⟩ := load_item hls (fun hmk => hb ⟨e, List.mem_of_getElem? he, hmk⟩) (h4 i e m he hm)
    refine ⟨w, e, n, he, hn, hs, by rw [e3]; rfl, ⟨b, by rw [e3]; rfl, ?_, (hk e (List.mem_of_getElem? he)).back hx e1 e2⟩, f0, fun f hf sib => ?_⟩
    · have hkey := hk e (List.mem_of_getElem? he)
      rintro rfl
      generalize e.1 = k0 at hkey e2
      cases hkey <;> simp [keyBase] at e2
    · rw [e3]; exact hf0 f hf sib n.1 _ rfl rfl
  obtain ⟨ws, hw, hws⟩ := choose_list g1
  have g2 : ∀ i, i < es.length → ∃ f0, ∀ f, f0 ≤ f → ∀ w n, ws[i]? = some w → ms[i]? = some n → ∀ sib, load l f sib n.1 n.2 = .ok w := by
    intro i hi'
    obtain ⟨w, hwi⟩ := getElem?_some_of_lt (hw ▸ hi')
    obtain ⟨e, n, _, hn, _, _, _, f0, hf0⟩ := hws i w hwi
    refine ⟨f0, fun f hf w' n' hw' hn' sib => ?_⟩
    rw [hwi] at hw'; cases hw'
    rw [hn] at hn'; cases hn'
    exact hf0 f hf sib
  obtain ⟨f0, hf0⟩ := ev_all g2
  obtain ⟨es', hdef⟩ : ∃ es' : List (V3.PV × Val), es' = (es.zip ws).map fun p => (p.1.1, p.2) := ⟨_, rfl⟩
  have hlen : es'.length = es.length := by simp [hdef, hw]
  have hes' : ∀ (i : Nat) e w, es[i]? = some e → ws[i]? = some w → es'[i]? = some (e.1, w) := by
    intro i e w he hwi
    rw [hdef, List.getElem?_map, List.getElem?_zip_eq_some (z := (e, w)).2 ⟨he, hwi⟩]; rfl
  have hfst : es'.map Prod.fst = es.map Prod.fst := by
    apply List.ext_getElem?
    intro i
    rw [List.getElem?_map, List.getElem?_map]
    by_cases hi' : i < es.length
    · obtain ⟨e, he⟩ := getElem?_some_of_lt hi'
      obtain ⟨w, hwi⟩ := getElem?_some_of_lt (hw ▸ hi')
      rw [hes' i e w he hwi, he]; rfl
    · rw [List.getElem?_eq_none (by omega), List.getElem?_eq_none (by omega)]
  have hres : ∀ ms, resolve l (.group { type := some (own u .dict), base := some "dict" } ms) = ⟨own u .dict, "dict"⟩ := fun ms => resolve_own rfl rfl (by simp) hi
  refine ⟨_, _, wrap u (.dict es'), f0 + 1, rfl, .inl ⟨wrap_not_masked rfl, rfl⟩, .wrap (.dict hlen ?_ ?_), fun f hf sib _ => ?_⟩
  · intro i a b ha hb'
    obtain ⟨w, hwi⟩ := getElem?_some_of_lt (xs := ws) (i := i) (hw ▸ lt_of_getElem? ha)
    rw [hes' i a w ha hwi] at hb'; cases hb'; rfl
  · intro i a b ha hb'
    obtain ⟨w, hwi⟩ := getElem?_some_of_lt (xs := ws) (i := i) (hw ▸ lt_of_getElem? ha)
    rw [hes' i a w ha hwi] at hb'; cases hb'
    obtain ⟨e, n, he, _, hs, _⟩ := hws i w hwi
    rw [ha] at he; cases he; exact hs
  · obtain ⟨f, rfl⟩ : ∃ g, f = g + 1 := ⟨f - 1, by omega⟩
    have hmem : ∀ e, e ∈ l.order ms ↔ e ∈ ms := fun e => (hls _).mem_iff
    have hfold : (l.order ms).foldlM (fun c e => (load l f ms e.1 e.2).bind fun v => dictAppend l c e.1 v e.2.attrs) [] = .ok (es'.map some) := by
      apply fold_place_nil (hole := none) (isHole := Option.isNone) rfl (fun e : PyStr × Node => e.2.attrs.keyIdx)
      · intro n hn c
        obtain ⟨i, hni⟩ := List.mem_iff_getElem?.1 ((hmem n).1 hn)
        have hi' : i < es.length := h2 ▸ lt_of_getElem? hni
        obtain ⟨w, hwi⟩ := getElem?_some_of_lt (xs := ws) (hw ▸ hi')
        obtain ⟨e, n', he, hn', hs, hix, ⟨b, hkb, hne, hkey⟩, _⟩ := hws i w hwi
        rw [hni] at hn'; cases hn'
        refine .inl ⟨i, some (e.1, w), hix, by rw [List.getElem?_map, hes' i e w he hwi]; rfl, ?_⟩
        rw [hf0 f (by omega) i hi' w n hwi hni ms]
        simp only [Except.bind, dictAppend, hkb, Option.some.injEq, hne, if_false, Option.getD_some, bind, hkey, hix]
      · have : ms.Pairwise fun a b => ∀ i, a.2.attrs.keyIdx = some i → b.2.attrs.keyIdx ≠ some i := by
          rw [List.pairwise_iff_getElem]
          intro i j hi' hj hij x h1' h2'
          obtain ⟨w, hwi⟩ := getElem?_some_of_lt (xs := ws) (i := i) (by omega)
          obtain ⟨w', hwj⟩ := getElem?_some_of_lt (xs := ws) (i := j) (by omega)
          obtain ⟨e, n, _, hn, _, hix, _⟩ := hws i w hwi
          obtain ⟨e', n', _, hn', _, hjx, _⟩ := hws j w' hwj
          rw [List.getElem?_eq_getElem hi'] at hn; cases hn
          rw [List.getElem?_eq_getElem hj] at hn'; cases hn'
          rw [hix] at h1'; rw [hjx] at h2'
          cases h1'; cases h2'; omega
        exact ((hls ms).pairwise_iff fun {a b} h i ha hb' => h i hb' ha).2 this
      · intro i hi'
        simp only [List.length_map, hlen] at hi'
        obtain ⟨w, hwi⟩ := getElem?_some_of_lt (xs := ws) (hw ▸ hi')
        obtain ⟨e, n, _, hn, _, hix, _⟩ := hws i w hwi
        exact ⟨n, (hmem n).2 (List.mem_of_getElem? hn), hix⟩
    have hid : ∀ xs : List (V3.PV × Val), (xs.map some).mapM id = some xs := by
      intro xs
      induction xs with
      | nil => rfl
      | cons x xs ih => rw [List.map_cons, List.mapM_cons, ih]; rfl
    rw [load, hres]
    simp only [mkCont, cont_dict, bind, Except.bind, filter]
    rw [loadAll_dict, hfold]
    simp only [Except.map, convert, hid]
    have := dictOf_differ (acc := []) (es := es') (oeq := l.env.opaqueEq) (by simpa [hfst] using hd)
    rw [this]
    simp only [bind, Except.bind, List.nil_append]
    cases u with
    | none => rfl
    | some n => simp only [own, wrap, hc n]

/-- **what version 4.0 has written comes back** -/
theorem Puts.loads {l : Libs} (hls : Lists l) (hx : TextOk l.env) (hc : CtorOk l) {name : PyStr} {v : Val} {ms : Members} (h : Puts l name v ms) : Clean l v → Loads l name v ms := by
  induction h with
  | none name d => intro h; cases h
  | num name v x h1 h2 => intro _; exact load_num h1
  | str name s =>
    intro _
    refine .dset rfl (.refl _) fun sib => ?_
    rw [resolve_cls rfl rfl (by simp)]
    simp only [loadData, fn_str, loadStr4x, if_true]
  | bytes name b =>
    intro _
    refine .dset rfl (.refl _) fun sib => ?_
    rw [resolve_cls rfl rfl (by simp)]
    simp only [loadData, fn_bytes, loadList]
    simp [ofBytes]
  | np name x =>
    intro _
    refine .dset rfl (.refl _) fun sib => ?_
    rw [resolve_cls rfl rfl (by cases x <;> simp [NpVal.cls])]
    simp only [loadData, fn_np, loadNpScalar, if_true]
  | arr name a =>
    intro _
    refine .dset rfl (.refl _) fun sib => ?_
    rw [resolve_cls rfl rfl (by simp)]
    simp only [loadData, fn_ndarray, loadNdarray]
    simp
  | matrix name a h =>
    intro _
    refine .dset rfl (.refl _) fun sib => ?_
    rw [resolve_cls rfl rfl (by simp)]
    simp only [loadData, fn_ndarray, loadNdarray, h]
    simp
  | sarr name w shape data h1 h2 h3 =>
    intro h
    cases h with
    | sarr _ _ _ h => exact load_sarr h1 h2 h3 h
  | barr name w shape data =>
    intro _
    refine .dset rfl (.refl _) fun sib => ?_
    rw [resolve_cls rfl rfl (by simp)]
    simp only [loadData, fn_ndarray, loadNdarray, and_self, if_true]
  | masked name a mask h => intro _; exact load_masked
  | sparse name k d ix ip shape => intro _; exact load_sparse hls
  | «opaque» name c st =>
    intro _
    refine .dset rfl (.refl _) fun sib => ?_
    have : resolve l (.dset (.pickle c st) { base := some "pickle" }) = ⟨.cls .object, "pickle"⟩ := rfl
    rw [this]
    simp only [loadData, fn_pickle]
  | nums name u k items vs dt h1 h2 h3 h4 =>
    intro h
    obtain ⟨hcl, hi⟩ := h.unwrap
    have he : k = .set → Elements l.env.opaqueEq items := by cases hcl with | seq _ _ _ h _ => exact h
    refine .dset (wrap_not_masked rfl) (.wrap (.nums k h2)) fun sib => ?_
    rw [resolve_own rfl rfl (cls_not_user k) hi]
    simp only [loadData, fn_seq, loadList]
    rw [if_pos (by simp)]
    exact ofItems_ok hc h4 fun hk => .of_view (nums_view h2) (he hk)
  | strs name k ss h1 h2 =>
    intro h
    cases h with
    | seq _ _ _ he hs => exact load_strs hc h2 he (hs ss rfl)
  | bytess name k w bs h1 =>
    intro h
    have he : k = .set → Elements l.env.opaqueEq (bs.map .bytes) := by cases h with | seq _ _ _ h _ => exact h
    refine .dset rfl (.bytess k bs) fun sib => ?_
    rw [resolve_cls rfl rfl (cls_not_user k)]
    simp only [loadData, fn_seq, loadList]
    rw [if_neg (by decide)]
    refine ofItems_ok hc (u := Option.none) (by simp) fun hk => .of_view ?_ (he hk)
    rw [List.map_map, List.map_map]; rfl
  | empty name u k hu =>
    intro h
    obtain ⟨hcl, hi⟩ := h.unwrap
    refine .dset (wrap_not_masked rfl) (.refl _) fun sib => ?_
    rw [resolve_own rfl rfl (cls_not_user k) hi]
    simp only [loadData, fn_seq, loadList]
    rw [if_neg (by cases u <;> cases k <;> simp [own, SK.cls]), if_neg (by cases u <;> cases k <;> simp [own, SK.cls])]
    exact ofItems_ok hc hu fun _ => ⟨by simp, .nil⟩
  | items name u k items mss hl hu hp ih =>
    intro h
    obtain ⟨hcl, hi⟩ := h.unwrap
    cases hcl with
    | seq _ _ hx he _ => exact load_items hls hc hl hu hi he fun i x m hxi hm => ih i x m hxi hm (hx x (List.mem_of_getElem? hxi))
  | dict name u es mss ms h1 h2 h3 hp ih =>
    intro h
    obtain ⟨hcl, hi⟩ := h.unwrap
    cases hcl with
    | dict _ hk hd hv hb => exact load_dict hls hx hc h1 h2 h3 (fun i e m he hm => ih i e m he hm (hv e (List.mem_of_getElem? he))) hi hk hd hb
  | objarr name v ms hp ih =>
    intro h
    cases h with
    | oarr _ h1 h2 => exact load_objarr hls h1 (ih h2)

end Verif.V4
