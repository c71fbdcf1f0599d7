import Verif.Props.V3Spec
import Verif.Hickle.LoadInv
import Verif.Hickle.RoundTrip
/-!
# Version 3: what is written is read back

The lemmas for `C41`.
-/
namespace Verif.V3

theorem put_ok {ms ms' : Members} {name : PyStr} {n : Node} (h : putMember ms name n = .ok ms') : Assoc.get? ms name = none ∧ ms' = ms ++ [(name, n)] := by
  unfold putMember at h
  split at h
  · simp at h
  · next hn =>
    injection h with h
    refine ⟨?_, h.symm⟩
    cases hg : Assoc.get? ms name with
    | none => rfl
    | some x => simp [hg] at hn

/-- a node that is read as the value, whatever group it stands in -/
def Fits (l : Libs) (v : PV) (n : Node) : Prop :=
  ∃ w, Same v w ∧ ∃ f0, ∀ f, f0 ≤ f → ∀ sib name, load l f sib name n = .ok w

theorem Fits.dset {l : Libs} {v w : PV} {d : DSet} {at' : List (String × String)} (hs : Same v w) (h : ∀ sib name, loadDataset l sib name d at' = .ok w) :
    Fits l v (.dset d at') := by
  refine ⟨w, hs, 1, fun f hf sib name => ?_⟩
  obtain ⟨f, rfl⟩ : ∃ g, f = g + 1 := ⟨f - 1, by omega⟩
  rw [load]
  exact h sib name

theorem stripNul_of_last {b : Bytes} (h : b.getLast? ≠ some 0) : stripNul b = b := by
  unfold stripNul
  have : b.reverse.dropWhile (fun x => decide (x = 0)) = b.reverse := by
    cases hb : b.reverse with
    | nil => rfl
    | cons c r =>
      have : b.getLast? = some c := by rw [List.getLast?_eq_head?_reverse, hb]; rfl
      rw [List.dropWhile_cons, if_neg]
      simp only [decide_eq_true_eq]
      rintro rfl
      exact h this
  rw [this, List.reverse_reverse]

theorem encodeCp_last {c : Nat} {b : Bytes} (h : encodeCp c = some b) (hc : c ≠ 0) : b.getLast? ≠ some 0 := by
  have key : ∀ n : Nat, n < 256 → n ≠ 0 → some (UInt8.ofNat n) ≠ some 0 := by
    intro n hn h0 he
    injection he with he
    have := congrArg UInt8.toNat he
    rw [toNat_ofNat_lt hn] at this
    exact h0 this
  unfold encodeCp at h
  repeat' split at h
  all_goals (try (simp at h; done))
  all_goals (injection h with h; subst h; simp only [List.getLast?_cons_cons, List.getLast?_singleton]; exact key _ (by omega) (by omega))

theorem utf8Encode_last {s : PyStr} {b : Bytes} (h : utf8Encode s = some b) (hs : s.getLast? ≠ some 0) : b.getLast? ≠ some 0 := by
  induction s generalizing b with
  | nil => simp [utf8Encode] at h; subst h; simp
  | cons c cs ih =>
    unfold utf8Encode at h
    split at h
    · next b1 bs h1 h2 =>
      injection h with h; subst h
      cases cs with
      | nil =>
        simp [utf8Encode] at h2; subst h2
        rw [List.append_nil]
        exact encodeCp_last h1 (by rintro rfl; simp at hs)
      | cons d ds =>
        have := ih h2 (by simpa using hs)
        have hne : bs ≠ [] := by
          intro e; subst e
          unfold utf8Encode at h2
          split at h2
          · next h3 h4 =>
            injection h2 with h2
            exact encodeCp_ne_nil h3 (List.append_eq_nil_iff.1 h2).1
          · simp at h2
        rw [List.getLast?_append]
        cases hl : bs.getLast? with
        | none => exact absurd (List.getLast?_eq_none_iff.1 hl) hne
        | some z => rw [hl] at this; simpa using this
    · simp at h

theorem bytesData_ok {l : Libs} {bs : List Bytes} {d : DSet} (h : bytesData l bs = .ok d) (hn : l.newW = false → ∀ b ∈ bs, b.getLast? ≠ some 0) : d = .bytesArr bs := by
  unfold bytesData at h
  cases hw : l.newW with
  | true =>
    rw [hw, if_pos rfl] at h
    split at h
    · simp at h
    · injection h with h; exact h.symm
  | false =>
    rw [hw, if_neg (by decide)] at h
    injection h with h
    rw [← h]
    congr 1
    conv => rhs; rw [← List.map_id bs]
    exact List.map_congr_left fun b hb => stripNul_of_last (hn hw b hb)

/-! ### lists as one dataset -/

theorem itemType_all {items : List PV} {t : Ty} (h : itemType items = some t) : items ≠ [] ∧ ∀ x ∈ items, x.ty = t := by
  cases items with
  | nil => simp [itemType] at h
  | cons x xs =>
    rw [itemType] at h
    split at h
    · next ha =>
      injection h with h
      subst h
      refine ⟨by simp, fun y hy => ?_⟩
      rcases List.mem_cons.1 hy with rfl | hy
      · rfl
      · simpa using List.all_eq_true.1 ha y hy
    · simp at h

theorem encode_str {l : Libs} : ∀ {items : List PV} {bs : List Bytes}, (∀ x ∈ items, x.ty = .str) → encodeAll items = .ok bs →
    bs.mapM decodeText = .ok items ∧
    ((∀ x ∈ items, Item l x) → l.newW = false → ∀ b ∈ bs, b.getLast? ≠ some 0)
  | [], bs, _, h => by simp [encodeAll] at h; subst h; exact ⟨rfl, by simp⟩
  | x :: xs, bs, ht, h => by
    have hx := ht x (by simp)
    cases x <;> simp only [PV.ty, reduceCtorEq] at hx
    next s =>
    rw [encodeAll] at h
    cases hb : utf8Encode s with
    | none => simp [hb] at h
    | some b =>
      simp only [hb] at h
      cases hr : encodeAll xs with
      | error e => simp [hr, Except.map] at h
      | ok bs' =>
        simp only [hr, Except.map] at h
        injection h with h; subst h
        obtain ⟨ih1, ih2⟩ := encode_str (l := l) (fun y hy => ht y (by simp [hy])) hr
        refine ⟨?_, fun hi hw c hc => ?_⟩
        · rw [List.mapM_cons, ih1, decodeText, utf8Decode_encode hb]; rfl
        · rcases List.mem_cons.1 hc with rfl | hc
          · cases hi (.str s) (by simp) with
            | str _ h => exact utf8Encode_last hb (h hw)
          · exact ih2 (fun y hy => hi y (by simp [hy])) hw c hc

theorem encode_bytes {l : Libs} : ∀ {items : List PV} {bs : List Bytes}, (∀ x ∈ items, x.ty = .bytes) → (∀ x ∈ items, Item l x) → encodeAll items = .ok bs →
    bs.mapM decodeBytes = .ok items ∧
    (l.newW = false → ∀ b ∈ bs, b.getLast? ≠ some 0)
  | [], bs, _, _, h => by simp [encodeAll] at h; subst h; exact ⟨rfl, by simp⟩
  | x :: xs, bs, ht, hi, h => by
    have hx := ht x (by simp)
    cases x <;> simp only [PV.ty, reduceCtorEq] at hx
    next b =>
    rw [encodeAll] at h
    cases hr : encodeAll xs with
    | error e => simp [hr, Except.map] at h
    | ok bs' =>
      simp only [hr, Except.map] at h
      injection h with h; subst h
      obtain ⟨ih1, ih2⟩ := encode_bytes (fun y hy => ht y (by simp [hy])) (fun y hy => hi y (by simp [hy])) hr
      cases hi (.bytes b) (by simp) with
      | bytes _ h1 h2 =>
        obtain ⟨s, hs⟩ := Option.isSome_iff_exists.1 h2
        refine ⟨?_, fun hw c hc => ?_⟩
        · rw [List.mapM_cons, ih1, decodeBytes, hs]
          simp only [utf8Encode_decode hs]; rfl
        · rcases List.mem_cons.1 hc with rfl | hc
          · exact h1 hw
          · exact ih2 hw c hc

theorem mapM_num_length : ∀ {items : List PV} {vs : List NpVal}, items.mapM PV.num? = some vs → vs.length = items.length ∧
    ∀ (i : Nat) (x : PV) (v : NpVal), items[i]? = some x → vs[i]? = some v → x.num? = some v
  | [], vs, h => by simp at h; subst h; simp
  | x :: xs, vs, h => by
    rw [List.mapM_cons] at h
    cases hx : x.num? with
    | none => simp [hx] at h
    | some v =>
      cases hr : xs.mapM PV.num? with
      | none => simp [hx, hr] at h
      | some vs' =>
        simp [hx, hr] at h
        subst h
        obtain ⟨h1, h2⟩ := mapM_num_length hr
        refine ⟨by simp [h1], fun i y v' hy hv => ?_⟩
        cases i with
        | zero => simp at hy hv; subst hy; subst hv; exact hx
        | succ i => simp at hy hv; exact h2 i y v' hy hv

theorem num_mem {items : List PV} {vs : List NpVal} (h : items.mapM PV.num? = some vs) {v : NpVal} (hv : v ∈ vs) : ∃ x ∈ items, x.num? = some v := by
  obtain ⟨h1, h2⟩ := mapM_num_length h
  obtain ⟨i, hi⟩ := List.mem_iff_getElem?.1 hv
  have hl : i < items.length := by rw [← h1]; exact (List.getElem?_eq_some_iff.1 hi).1
  exact ⟨items[i], List.getElem_mem hl, h2 i _ _ (List.getElem?_eq_getElem hl) hi⟩

/-- numbers of lists are stored as they are -/
theorem numArray_ok {l : Libs} {items : List PV} {vs : List NpVal} {a : Nd} (hi : ∀ x ∈ items, Item l x) (hv : items.mapM PV.num? = some vs) (h : numArray vs = .ok a) :
    a.shape = [a.data.length] ∧ a.data = vs := by
  cases vs with
  | nil => simp [numArray] at h
  | cons v vs =>
    cases v with
    | i x =>
      have hall : ((NpVal.i x :: vs).all NpVal.ok) = true → numArray (.i x :: vs) = .ok ⟨.int64, [(NpVal.i x :: vs).length], .i x :: vs⟩ := by
        intro ha; rw [numArray, if_pos ha]
      have ha : ((NpVal.i x :: vs).all NpVal.ok) = true := by
        rw [List.all_eq_true]
        intro w hw
        obtain ⟨y, hy, hn⟩ := num_mem hv hw
        cases hi y hy with
        | int i h => simp only [PV.num?] at hn; injection hn with hn; subst hn; exact h
        | bool | float | cplx => simp only [PV.num?] at hn; injection hn with hn; subst hn; rfl
        | str | bytes => simp [PV.num?] at hn
      rw [hall ha] at h
      injection h with h; subst h; exact ⟨rfl, rfl⟩
    | b x => simp only [numArray] at h; injection h with h; subst h; exact ⟨rfl, rfl⟩
    | f x => simp only [numArray] at h; injection h with h; subst h; exact ⟨rfl, rfl⟩
    | c x y => simp only [numArray] at h; injection h with h; subst h; exact ⟨rfl, rfl⟩

theorem num_view {x : PV} {v : NpVal} (h : x.num? = some v) : (PV.np v).view = x.view := by
  cases x <;> simp only [PV.num?, reduceCtorEq] at h
  all_goals (injection h with h; subst h; simp [PV.view])

/-- equal views: still the elements of a set -/
theorem Elements.of_views {oeq : Nat → Nat → Bool} {xs ys : List PV} (h : Elements oeq xs) (hl : ys.length = xs.length)
    (hv : ∀ (i : Nat) (x y : PV), xs[i]? = some x → ys[i]? = some y → y.view = x.view) : Elements oeq ys := by
  refine ⟨fun y hy => ?_, ?_⟩
  · obtain ⟨i, hi⟩ := List.mem_iff_getElem?.1 hy
    have hlt : i < xs.length := by rw [← hl]; exact (List.getElem?_eq_some_iff.1 hi).1
    rw [hv i _ _ (List.getElem?_eq_getElem hlt) hi]
    exact h.1 _ (List.getElem_mem hlt)
  · rw [List.pairwise_iff_getElem]
    intro i j hi hj hij
    have := List.pairwise_iff_getElem.1 h.2 i j (by omega) (by omega) hij
    unfold PV.same at this ⊢
    rw [hv i _ _ (List.getElem?_eq_getElem (by omega)) (List.getElem?_eq_getElem hi), hv j _ _ (List.getElem?_eq_getElem (by omega)) (List.getElem?_eq_getElem hj)]
    exact this

theorem dsetKind_name {k : SeqK} (h : k = .list ∨ k = .tuple ∨ k = .set) : dsetKind k.typeName = some k ∧ seqKind k.typeName = some k := by
  rcases h with rfl | rfl | rfl <;> exact ⟨rfl, rfl⟩

theorem createListlike_fits {l : Libs} {k : SeqK} {items : List PV} (hk : k = .list ∨ k = .tuple ∨ k = .set) (hd : (itemType items).elim false dumpable = true)
    (hi : ∀ x ∈ items, Item l x) (he : k = .set → Elements l.env.opaqueEq items) {i : Nat} {ms ms' : Members} (h : createListlike l k items i ms = .ok ms') :
    ∃ n, ms' = ms ++ [(dataName i, n)] ∧ Fits l (.seq k items) n := by
  have hkk := (dsetKind_name hk).1
  cases ht : itemType items with
  | none => simp [ht] at hd
  | some t =>
    obtain ⟨hne, hall⟩ := itemType_all ht
    have hnum : (match items.mapM PV.num? with
        | none => Except.error PyErr.unmodelled
        | some vs => do
          let a ← numArray vs
          putMember ms (dataName i) (.dset (.array a) [("type", k.typeName)])) = .ok ms' → ∃ n, ms' = ms ++ [(dataName i, n)] ∧ Fits l (.seq k items) n := by
      intro h
      cases hm : items.mapM PV.num? with
      | none => simp [hm] at h
      | some vs =>
        simp only [hm, bind, Except.bind] at h
        cases hn : numArray vs with
        | error e => simp [hn] at h
        | ok a =>
          simp only [hn] at h
          obtain ⟨_, hms⟩ := put_ok h
          obtain ⟨hsh, hda⟩ := numArray_ok hi hm hn
          refine ⟨_, hms, .dset (.nums k hm) fun sib name => ?_⟩
          simp only [loadDataset, Assoc.get?, if_true, hkk, String.reduceEq, if_false]
          simp only [listItems, hsh, and_self, if_true, bind, Except.bind]
          rw [hda]
          refine mkSeq_ok fun hset => ?_
          obtain ⟨hlen, hidx⟩ := mapM_num_length hm
          refine (he hset).of_views (by simp [hlen]) fun j x y hx hy => ?_
          rw [List.getElem?_map] at hy
          obtain ⟨v, hv, rfl⟩ := Option.map_eq_some_iff.1 hy
          exact num_view (hidx j x v hx hv)
    unfold createListlike at h
    rw [ht] at h
    cases t <;> first | exact hnum h | skip
    · -- str
      simp only [bind, Except.bind] at h
      cases hb : encodeAll items with
      | error e => simp [hb] at h
      | ok bs =>
        simp only [hb] at h
        cases hbd : bytesData l bs with
        | error e => simp [hbd] at h
        | ok d =>
          simp only [hbd] at h
          obtain ⟨_, hms⟩ := put_ok h
          obtain ⟨h1, h2⟩ := encode_str (l := l) hall hb
          have := bytesData_ok hbd (h2 hi)
          subst this
          refine ⟨_, hms, .dset (.refl _) fun sib name => ?_⟩
          simp only [loadDataset, Assoc.get?, if_true, hkk, String.reduceEq, if_false]
          simp only [listItems, Option.some.injEq, String.reduceEq, if_false, if_true]
          rw [h1]
          simp only [bind, Except.bind]
          exact mkSeq_ok he
    · -- bytes
      simp only [bind, Except.bind] at h
      cases hb : encodeAll items with
      | error e => simp [hb] at h
      | ok bs =>
        simp only [hb] at h
        cases hbd : bytesData l bs with
        | error e => simp [hbd] at h
        | ok d =>
          simp only [hbd] at h
          obtain ⟨_, hms⟩ := put_ok h
          obtain ⟨h1, h2⟩ := encode_bytes hall hi hb
          have := bytesData_ok hbd h2
          subst this
          refine ⟨_, hms, .dset (.refl _) fun sib name => ?_⟩
          simp only [loadDataset, Assoc.get?, if_true, hkk, String.reduceEq, if_false]
          simp only [listItems, if_true]
          rw [h1]
          simp only [bind, Except.bind]
          exact mkSeq_ok he

/-! ### objects that are not containers -/

theorem createPyNum_fits {l : Libs} {v : PV} {x : NpVal} {name : String} (hn : castPy name x = .ok v) {i : Nat} {ms ms' : Members} (h : createPyNum x name i ms = .ok ms') :
    ∃ n, ms' = ms ++ [(dataName i, n)] ∧ Fits l v n := by
  unfold createPyNum at h
  split at h
  · obtain ⟨_, hms⟩ := put_ok h
    refine ⟨_, hms, .dset (.refl _) fun sib name => ?_⟩
    simp only [loadDataset, Assoc.get?, if_true, String.reduceEq, if_false, dsetKind]
    exact hn
  · simp at h

theorem noMatch_fits {l : Libs} {v : PV} {i : Nat} {ms ms' : Members} (h : noMatch l v i ms = .ok ms') : ∃ n, ms' = ms ++ [(dataName i, n)] ∧ Fits l v n := by
  unfold noMatch at h
  split at h
  · simp at h
  · obtain ⟨_, hms⟩ := put_ok h
    refine ⟨_, hms, .dset (.refl _) fun sib name => ?_⟩
    simp only [loadDataset, Assoc.get?, if_true, String.reduceEq, if_false, dsetKind]

/-- members whose names are listed in order: the first one stays first -/
theorem first_of_byName {r rest : List PyStr} {a : PyStr} (hp : r.Perm (a :: rest)) (hs : r.Pairwise fun x y => textLe x y = true) (ha : ∀ b ∈ rest, textLe b a = false) :
    ∃ r', r = a :: r' ∧ r'.Perm rest := by
  cases r with
  | nil => exact absurd hp.symm.eq_nil (by simp)
  | cons c r =>
    by_cases hc : c = a
    · subst hc; exact ⟨r, rfl, hp.cons_inv⟩
    · have h1 : c ∈ rest := by
        rcases List.mem_cons.1 (hp.mem_iff.1 (List.mem_cons_self ..)) with h | h
        · exact absurd h hc
        · exact h
      have h2 : a ∈ r := by
        rcases List.mem_cons.1 (hp.mem_iff.2 (List.mem_cons_self ..)) with h | h
        · exact absurd h.symm hc
        · exact h
      have := List.rel_of_pairwise_cons hs h2
      rw [ha c h1] at this
      simp at this

theorem mapM_const {α β : Type} {f : α → Except PyErr β} {b : β} : ∀ {xs : List α}, (∀ x ∈ xs, f x = .ok b) → xs.mapM f = .ok (xs.map fun _ => b)
  | [], _ => rfl
  | x :: xs, h => by
    rw [List.mapM_cons, h x (by simp), mapM_const fun y hy => h y (by simp [hy])]; rfl

theorem spKind_name (k : SpK) : spKind "_matrix" (k.name ++ "_matrix") = some k ∧ spKind "_matrix_data" (k.name ++ "_matrix_data") = some k ∧
    unsorted.contains (k.name ++ "_matrix") = true ∧ k.name ++ "_matrix" ≠ "dict_item" ∧ seqKind (k.name ++ "_matrix") = none := by
  cases k <;> decide

theorem shape_back (shape : List Nat) : (shapeNd shape).data.mapM npNat = some shape := by
  unfold shapeNd
  induction shape with
  | nil => rfl
  | cons n ns ih =>
    simp only [List.map_cons, List.mapM_cons] at ih ⊢
    rw [ih]
    simp [npNat]

theorem load_sparse_data (l : Libs) (k : SpK) (d : Nd) (sib : Members) (name : PyStr) :
    loadDataset l sib name (.array d) [("type", k.name ++ "_matrix_data")] = loadSparse k sib (.array d) := by
  cases k <;> simp [loadDataset, Assoc.get?, SpK.name, dsetKind, spKind]

theorem load_sparse_rest (l : Libs) (k : SpK) (d : Nd) (sib : Members) (name : PyStr) (t : String) (ht : t = "_matrix_indices" ∨ t = "_matrix_indptr" ∨ t = "_matrix_shape") :
    loadDataset l sib name (.array d) [("type", k.name ++ t)] = .ok .none := by
  rcases ht with rfl | rfl | rfl <;> cases k <;> simp [loadDataset, Assoc.get?, SpK.name, dsetKind, spKind]

theorem sparse_fits {l : Libs} (hl : Lists l) (hb : ByName l) (k : SpK) (d ix ip : Nd) (shape : List Nat) : Fits l (.sparse k d ix ip shape) (sparseGroup k d ix ip shape) := by
  refine ⟨_, .refl _, 2, fun f hf sib name => ?_⟩
  obtain ⟨f, rfl⟩ : ∃ g, f = g + 2 := ⟨f - 2, by omega⟩
  obtain ⟨k1, k2, k3, k4, k5⟩ := spKind_name k
  unfold sparseGroup
  generalize hms : ([
    (ps "data", .dset (.array d) [("type", k.name ++ "_matrix_data")]),
    (ps "indices", .dset (.array ix) [("type", k.name ++ "_matrix_indices")]),
    (ps "indptr", .dset (.array ip) [("type", k.name ++ "_matrix_indptr")]),
    (ps "shape", .dset (.array (shapeNd shape)) [("type", k.name ++ "_matrix_shape")])] : Members) = sub
  have g1 : Assoc.get? sub (ps "data") = some (.dset (.array d) [("type", k.name ++ "_matrix_data")]) := by subst hms; rfl
  have g2 : Assoc.get? sub (ps "indices") = some (.dset (.array ix) [("type", k.name ++ "_matrix_indices")]) := by subst hms; rfl
  have g3 : Assoc.get? sub (ps "indptr") = some (.dset (.array ip) [("type", k.name ++ "_matrix_indptr")]) := by subst hms; rfl
  have g4 : Assoc.get? sub (ps "shape") = some (.dset (.array (shapeNd shape)) [("type", k.name ++ "_matrix_shape")]) := by subst hms; rfl
  have hp : (l.order sub).Perm (ps "data" :: [ps "indices", ps "indptr", ps "shape"]) := by have := hl sub; subst hms; exact this
  obtain ⟨r, hr, hrp⟩ := first_of_byName hp (hb sub) (by decide)
  have hfirst : member (load l (f + 1) sub) sub (ps "data") = .ok (.sparse k d ix ip shape) := by
    simp only [member, g1, load]
    rw [load_sparse_data]
    simp only [loadSparse, arrayAt, g2, g3, g4, shape_back]
  have hrest : r.mapM (member (load l (f + 1) sub) sub) = .ok (r.map fun _ => .none) := by
    refine mapM_const fun x hx => ?_
    have hx := hrp.mem_iff.1 hx
    simp only [List.mem_cons, List.not_mem_nil, or_false] at hx
    rcases hx with rfl | rfl | rfl
    · simp only [member, g2, load]; exact load_sparse_rest l k ix sub _ _ (.inl rfl)
    · simp only [member, g3, load]; exact load_sparse_rest l k ip sub _ _ (.inr (.inl rfl))
    · simp only [member, g4, load]; exact load_sparse_rest l k _ sub _ _ (.inr (.inr rfl))
  rw [load_group (type := k.name ++ "_matrix") (kt := none) (keys := ps "data" :: r) (items := .sparse k d ix ip shape :: r.map fun _ => .none) (by simp [Assoc.get?])
    (by rw [keyTypeOf, if_neg k4]) (by rw [visit, if_pos k3, hr]) (by rw [List.mapM_cons, hfirst, hrest]; rfl)]
  simp [convert, k5, k1]

/-! ### sequences -/

/-- `data_i`, `data_(i+1)`, ... -/
def named : Nat → List Node → Members
  | _, [] => []
  | i, n :: ns => (dataName i, n) :: named (i + 1) ns

theorem named_names (i : Nat) (ns : List Node) : (named i ns).map Prod.fst = (List.range ns.length).map fun j => dataName (i + j) := by
  induction ns generalizing i with
  | nil => rfl
  | cons n ns ih =>
    rw [List.length_cons, List.range_succ_eq_map, named, List.map_cons, ih, List.map_cons, List.map_map]
    simp only [Nat.add_zero, List.cons.injEq, true_and]
    refine List.map_congr_left fun j _ => ?_
    simp only [Function.comp_apply]
    congr 1; omega

theorem named_get (i : Nat) (ns : List Node) (j : Nat) : Assoc.get? (named i ns) (dataName (i + j)) = ns[j]? := by
  induction ns generalizing i j with
  | nil => rfl
  | cons n ns ih =>
    cases j with
    | zero => simp [named, Assoc.get?]
    | succ j =>
      have : ¬ dataName i = dataName (i + (j + 1)) := fun h => by have := dataName_inj h; omega
      simp only [named, Assoc.get?, this, if_false, List.getElem?_cons_succ]
      rw [← ih (i + 1) j]; congr 2; omega

theorem dumpItems_fits {l : Libs} {fuel : Nat} : ∀ {items : List PV} {i : Nat} {ms ms' : Members},
    (∀ x ∈ items, ∀ i ms ms', dump l fuel x i ms = .ok ms' → ∃ n, ms' = ms ++ [(dataName i, n)] ∧ Fits l x n) → dumpItems (dump l fuel) items i ms = .ok ms' →
    ∃ ns, ms' = ms ++ named i ns ∧ All2 (Fits l) items ns
  | [], i, ms, ms', _, h => by
    simp only [dumpItems] at h; injection h with h
    exact ⟨[], by simp [named, h], .nil⟩
  | x :: xs, i, ms, ms', hd, h => by
    simp only [dumpItems, bind, Except.bind] at h
    cases hx : dump l fuel x i ms with
    | error e => simp [hx] at h
    | ok ms1 =>
      simp only [hx] at h
      obtain ⟨n, rfl, hn⟩ := hd x (by simp) i ms ms1 hx
      obtain ⟨ns, h1, h2⟩ := dumpItems_fits (fun y hy => hd y (by simp [hy])) h
      exact ⟨n :: ns, by rw [h1, named]; simp, .cons hn h2⟩

/-- the values of the items, and how deep the stack must be for all of them -/
theorem fits_all {l : Libs} {items : List PV} {ns : List Node} (h : All2 (Fits l) items ns) :
    ∃ ws, All2 Same items ws ∧ ∃ f0, ∀ f, f0 ≤ f → All2 (fun n w => ∀ sib name, load l f sib name n = .ok w) ns ws := by
  induction h with
  | nil => exact ⟨[], .nil, 0, fun _ _ => .nil⟩
  | cons h _ ih =>
    obtain ⟨w, hs, f1, h1⟩ := h
    obtain ⟨ws, hss, f2, h2⟩ := ih
    exact ⟨w :: ws, .cons hs hss, max f1 f2, fun f hf => .cons (h1 f (by omega)) (h2 f (by omega))⟩

theorem all2_idx {α β : Type} {r : α → β → Prop} {xs : List α} {ys : List β} (h : All2 r xs ys) : ∀ (i : Nat) (x : α) (y : β), xs[i]? = some x → ys[i]? = some y → r x y := by
  induction h with
  | nil => simp
  | cons h _ ih =>
    intro i x y hx hy
    cases i with
    | zero => simp at hx hy; subst hx; subst hy; exact h
    | succ i => simp at hx hy; exact ih i x y hx hy

theorem views_same : ∀ {xs ys : List PV}, ys.length = xs.length → (∀ (i : Nat) (x y : PV), xs[i]? = some x → ys[i]? = some y → y.view = x.view) → PV.views ys = PV.views xs
  | [], [], _, _ => rfl
  | x :: xs, y :: ys, hl, h => by
    rw [PV.views, PV.views, h 0 x y rfl rfl, views_same (by simpa using hl) fun i a b ha hb => h (i + 1) a b (by simpa using ha) (by simpa using hb)]
  | [], _ :: _, hl, _ => by simp at hl
  | _ :: _, [], hl, _ => by simp at hl

/-- a set or dictionary sees no difference -/
theorem Same.view {v w : PV} (h : Same v w) : w.view = v.view := by
  induction h with
  | refl => rfl
  | @nums k items vs h =>
    obtain ⟨h1, h2⟩ := mapM_num_length h
    cases k <;> simp only [PV.view]
    rw [views_same (ys := vs.map .np) (xs := items) (by simp [h1])]
    intro i x y hx hy
    rw [List.getElem?_map] at hy
    obtain ⟨v, hv, rfl⟩ := Option.map_eq_some_iff.1 hy
    exact num_view (h2 i x v hx hv)
  | @seq k items items' hl _ ih =>
    cases k <;> simp only [PV.view]
    rw [views_same hl ih]
  | dict => simp [PV.view]

theorem seqGroup_fits {l : Libs} (hl : Lists l) {k : SeqK} {items : List PV} {ns : List Node} (hk : k = .list ∨ k = .tuple ∨ k = .set)
    (he : k = .set → Elements l.env.opaqueEq items) (h : All2 (Fits l) items ns) : Fits l (.seq k items) (.group [("type", k.typeName)] (named 0 ns)) := by
  obtain ⟨ws, hs, f0, hf⟩ := fits_all h
  have hlen : ws.length = items.length := hs.length.symm
  have hidx : ∀ (i : Nat) (x y : PV), items[i]? = some x → ws[i]? = some y → Same x y := all2_idx hs
  refine ⟨.seq k ws, .seq k hlen hidx, f0 + 1, fun f hle sib name => ?_⟩
  obtain ⟨f, rfl⟩ : ∃ g, f = g + 1 := ⟨f - 1, by omega⟩
  have hkk := (dsetKind_name hk).2
  obtain ⟨hu, hd⟩ := seqKind_cases hkk
  have hnl : ns.length = ws.length := by rw [hlen, h.length]
  have hp : (l.order (named 0 ns)).Perm ((List.range ws.length).map dataName) := by
    have := hl (named 0 ns)
    rw [named_names, hnl] at this
    simpa using this
  rw [load_group (type := k.typeName) (kt := none) (keys := (List.range ws.length).map dataName) (items := ws) (by simp [Assoc.get?]) (by rw [keyTypeOf, if_neg hd])
    (by rw [visit, hu, if_neg (by simp), running hp]) (by
      refine mapM_range (β := PV) _ dataName ws fun i w hw => ?_
      have hi : i < ns.length := by rw [hnl]; exact (List.getElem?_eq_some_iff.1 hw).1
      have hg := named_get 0 ns i
      rw [Nat.zero_add, List.getElem?_eq_getElem hi] at hg
      rw [member, hg]
      exact all2_idx (hf f (by omega)) i _ _ (List.getElem?_eq_getElem hi) hw _ _)]
  simp only [convert, hkk]
  exact mkSeq_ok fun hset => (he hset).of_views hlen fun i x y hx hy => (hidx i x y hx hy).view

/-! ### dictionaries -/

/-- the group of an entry, or the root: its first item is the value -/
def Slot (l : Libs) (v : PV) (sub : Members) : Prop :=
  ∃ w, Same v w ∧ ∃ tail f0, ∀ f, f0 ≤ f → ∀ t, unsorted.contains t = false → ∃ keys, visit t (l.order sub) = .ok keys ∧
    keys.mapM (member (load l f sub) sub) = .ok (w :: tail)

theorem Slot.of_fits {l : Libs} (hl : Lists l) {v : PV} {n : Node} (h : Fits l v n) : Slot l v [(dataName 0, n)] := by
  obtain ⟨w, hs, f0, hf⟩ := h
  refine ⟨w, hs, [], f0, fun f hle t ht => ⟨[dataName 0], ?_, ?_⟩⟩
  · have hp := hl [(dataName 0, n)]
    rw [visit, ht, if_neg (by simp)]
    exact running (n := 1) hp
  · rw [List.mapM_cons, member]
    simp [Assoc.get?, hf f hle]; rfl

theorem mask_back (mask : List Bool) : (mask.map NpVal.b).mapM npBit = some mask := by
  induction mask with
  | nil => rfl
  | cons b bs ih => rw [List.map_cons, List.mapM_cons, ih]; rfl

theorem Slot.masked {l : Libs} (hl : Lists l) (hb : ByName l) {a : Nd} {mask : List Bool} {sub : Members} (h : createDataset l (.masked a mask) 0 [] = .ok sub) :
    Slot l (.masked a mask) sub := by
  simp only [createDataset, bind, Except.bind] at h
  cases h1 : putMember [] (dataName 0) (.dset (.array a) [("type", "ndarray_masked_data")]) with
  | error e => simp [h1] at h
  | ok ms =>
    simp only [h1] at h
    obtain ⟨_, rfl⟩ := put_ok h1
    obtain ⟨_, rfl⟩ := put_ok h
    have hd0 : dataName 0 = ps "data_0" := by
      unfold dataName; rw [show digits 0 = [48] by decide +kernel]; decide
    have hdm : dataName 0 ++ ps "_mask" = ps "data_0_mask" := by rw [hd0]; decide
    refine ⟨_, .refl _, [.none], 1, fun f hle t ht => ⟨[ps "data_0", ps "data_0_mask"], ?_, ?_⟩⟩
    · generalize hsub : ([] ++ [(dataName 0, Node.dset (.array a) [("type", "ndarray_masked_data")])] ++ [(dataName 0 ++ ps "_mask", _)] : Members) = sub
      have hp : (l.order sub).Perm (ps "data_0" :: [ps "data_0_mask"]) := by
        have := hl sub
        rw [← hsub] at this ⊢
        simp only [List.nil_append, List.cons_append, List.map_cons, List.map_nil] at this
        rw [← hdm, ← hd0]; exact this
      obtain ⟨r, hr, hrp⟩ := first_of_byName hp (hb _) (by decide)
      rw [visit, ht, if_neg (by simp), hr, hrp.symm.singleton_eq.symm]
      rfl
    · obtain ⟨f, rfl⟩ : ∃ g, f = g + 1 := ⟨f - 1, by omega⟩
      have hne : ¬ ps "data_0" = ps "data_0_mask" := by decide
      rw [List.mapM_cons, List.mapM_cons, hdm, hd0]
      simp only [List.nil_append, List.cons_append, member, Assoc.get?, if_true, hne, if_false, load, loadDataset, String.reduceEq, dsetKind, loadMasked, or_self]
      rw [show ps "data_0" ++ ps "_mask" = ps "data_0_mask" by decide]
      simp only [arrayAt, Assoc.get?, hne, if_false, if_true, mask_back]
      rfl

/-- the group of an entry of a dictionary -/
def Entry (l : Libs) (e : PV × PV) (m : PyStr × Node) : Prop :=
  KeyName l e.1 m.1 ∧ ∃ sub, m.2 = .group (itemAttrs e.1) sub ∧ Slot l e.2 sub

theorem get?_names {ms : Members} {k : PyStr} (h : Assoc.get? ms k = none) : ∀ m ∈ ms, m.1 ≠ k := by
  rintro m hm rfl
  exact Assoc.get?_none_of_mem h hm

theorem dumpEntries_fits {l : Libs} (hx : TextOk l.env) {fuel : Nat} : ∀ {es : List (PV × PV)} {ms ms' : Members}, (∀ e ∈ es, Key l e.1) →
    (∀ e ∈ es, ∀ sub, dump l fuel e.2 0 [] = .ok sub → Slot l e.2 sub) → (ms.Pairwise fun a b => a.1 ≠ b.1) → dumpEntries l (dump l fuel) es ms = .ok ms' →
    ∃ new, ms' = ms ++ new ∧ All2 (Entry l) es new ∧ ms'.Pairwise fun a b => a.1 ≠ b.1
  | [], ms, ms', _, _, hp, h => by
    simp only [dumpEntries] at h; injection h with h; subst h
    exact ⟨[], by simp, .nil, hp⟩
  | (k, v) :: es, ms, ms', hk, hd, hp, h => by
    simp only [dumpEntries, bind, Except.bind] at h
    cases ht : keyText l k with
    | error e => simp [ht] at h
    | ok t =>
      simp only [ht] at h
      have hn := (hk (k, v) (by simp)).name hx ht
      rw [hn.comps] at h
      simp only [putPath] at h
      cases h1 : putMember ms t (.group (itemAttrs k) []) with
      | error e => simp [h1] at h
      | ok _ =>
        simp only [h1] at h
        cases h2 : dump l fuel v 0 [] with
        | error e => simp [h2] at h
        | ok sub =>
          simp only [h2] at h
          cases h3 : putMember ms t (.group (itemAttrs k) sub) with
          | error e => simp [h3] at h
          | ok ms1 =>
            simp only [h3] at h
            obtain ⟨hnone, rfl⟩ := put_ok h3
            obtain ⟨new, h4, h5, h6⟩ := dumpEntries_fits hx (fun e he => hk e (by simp [he])) (fun e he => hd e (by simp [he])) (by
              rw [List.pairwise_append]
              refine ⟨hp, by simp, fun a ha b hb => ?_⟩
              simp only [List.mem_singleton] at hb
              subst hb
              exact get?_names hnone a ha) h
            exact ⟨(t, .group (itemAttrs k) sub) :: new, by rw [h4]; simp, .cons ⟨hn, sub, rfl, hd (k, v) (by simp) sub h2⟩ h5, h6⟩

theorem perm_map {α β : Type} (g : α → β) : ∀ {r s : List β}, r.Perm s → ∀ {xs : List α}, xs.map g = s → ∃ ys : List α, ys.Perm xs ∧ ys.map g = r := by
  intro r s h
  induction h with
  | nil => intro xs hx; exact ⟨[], by simp [List.map_eq_nil_iff.1 hx], rfl⟩
  | cons b _ ih =>
    intro xs hx
    obtain ⟨a, as, rfl, rfl, h⟩ := List.map_eq_cons_iff.1 hx
    obtain ⟨ys, h1, h2⟩ := ih h
    exact ⟨a :: ys, h1.cons a, by simp [h2]⟩
  | swap b c _ =>
    intro xs hx
    obtain ⟨a, as, rfl, rfl, h⟩ := List.map_eq_cons_iff.1 hx
    obtain ⟨a', as', rfl, rfl, h'⟩ := List.map_eq_cons_iff.1 h
    exact ⟨a' :: a :: as', .swap .., by simpa using h⟩
  | trans _ _ ih1 ih2 =>
    intro xs hx
    obtain ⟨ys, h1, h2⟩ := ih2 hx
    obtain ⟨zs, h3, h4⟩ := ih1 h2
    exact ⟨zs, h3.trans h1, h4⟩

/-- the entries as they are loaded -/
theorem entries_load {l : Libs} {ms : Members} {es : List (PV × PV)} {new : Members} (h : All2 (Entry l) es new) (hg : ∀ m ∈ new, Assoc.get? ms m.1 = some m.2) :
    ∃ es', All2 (fun a b => b.1 = a.1 ∧ Same a.2 b.2) es es' ∧ ∃ items, dictEntries l items = .ok es' ∧
      ∃ f0, ∀ f, f0 ≤ f → (new.map Prod.fst).mapM (member (load l f ms) ms) = .ok items := by
  induction h with
  | nil => exact ⟨[], .nil, [], rfl, 0, fun _ _ => rfl⟩
  | @cons e m es new he _ ih =>
    obtain ⟨hn, sub, hm, w, hs, tail, f1, hf1⟩ := he
    obtain ⟨es', h1, items, h2, f2, hf2⟩ := ih fun m hm => hg m (by simp [hm])
    refine ⟨(e.1, w) :: es', .cons ⟨rfl, hs⟩ h1, .cont m.1 (some (keyTypeName e.1)) (w :: tail) :: items, ?_, max f1 f2 + 1, fun f hf => ?_⟩
    · simp only [dictEntries, hn.conv, h2, bind, Except.bind]
    · obtain ⟨f, rfl⟩ : ∃ g, f = g + 1 := ⟨f - 1, by omega⟩
      obtain ⟨keys, hv, hk⟩ := hf1 f (by omega) "dict_item" (by decide)
      have hload : member (load l (f + 1) ms) ms m.1 = .ok (.cont m.1 (some (keyTypeName e.1)) (w :: tail)) := by
        rw [member, hg m (by simp), hm]
        simp only []
        rw [load_group (type := "dict_item") (kt := some (keyTypeName e.1)) (keys := keys) (items := w :: tail) (by simp [itemAttrs, Assoc.get?])
          (by simp [keyTypeOf, itemAttrs, Assoc.get?]) hv hk]
        simp [convert, seqKind, spKind]
      rw [List.map_cons, List.mapM_cons, hload, hf2 (f + 1) (by omega)]
      rfl

theorem dictPut_new {oeq : Nat → Nat → Bool} {k v : PV} : ∀ {acc : List (PV × PV)}, (∀ e ∈ acc, e.1.same oeq k = false) → dictPut oeq k v acc = acc ++ [(k, v)]
  | [], _ => rfl
  | (k', v') :: es, h => by
    rw [dictPut, if_neg (by simp [h (k', v') (by simp)]), dictPut_new fun e he => h e (by simp [he])]
    rfl

theorem dictOf_differ {oeq : Nat → Nat → Bool} : ∀ {es acc : List (PV × PV)}, Differ oeq ((acc ++ es).map Prod.fst) → dictOf oeq acc es = .ok (acc ++ es)
  | [], acc, _ => by simp [dictOf]
  | (k, v) :: es, acc, h => by
    have h1 : k.view.isNone = false := by
      have := h.1 k (by simp)
      cases hv : k.view <;> simp_all
    rw [dictOf, if_neg (by simp [h1]), dictPut_new, dictOf_differ (by simpa using h)]
    · simp
    · intro e he
      have := h.2
      rw [List.map_append, List.pairwise_append] at this
      exact (this.2.2 e.1 (List.mem_map_of_mem he) k (by simp)).1

theorem Differ.perm {oeq : Nat → Nat → Bool} {xs ys : List PV} (h : Differ oeq xs) (hp : ys.Perm xs) : Differ oeq ys :=
  ⟨fun k hk => h.1 k (hp.mem_iff.1 hk), (hp.pairwise_iff (fun hab => ⟨hab.2, hab.1⟩)).2 h.2⟩

theorem dict_fits {l : Libs} (hl : Lists l) {es : List (PV × PV)} {sub : Members} (hd : Differ l.env.opaqueEq (es.map Prod.fst)) (h : All2 (Entry l) es sub)
    (hp : sub.Pairwise fun a b => a.1 ≠ b.1) : Fits l (.dict es) (.group [("type", "<class 'dict'>")] sub) := by
  have hascii : Ascii (l.order sub) := by
    intro k hk
    obtain ⟨m, hm, rfl⟩ := List.mem_map.1 ((hl sub).mem_iff.1 hk)
    obtain ⟨e, _, he⟩ := h.right hm
    exact fun c hc => (he.1.chars c hc).1
  obtain ⟨r, hr, hrp⟩ := sortKeys_ascii hascii
  obtain ⟨new, hn1, hn2⟩ := perm_map Prod.fst (hrp.trans (hl sub)) rfl
  obtain ⟨es1, he2, he1⟩ := All2.perm_right hn1.symm h
  obtain ⟨es', h1, items, h2, f0, hf⟩ := entries_load he2 (ms := sub) fun m hm => Assoc.get?_of_mem hp (hn1.mem_iff.1 hm)
  have hkeys : es'.map Prod.fst = es1.map Prod.fst := by
    clear h2 hf he2 he1
    induction h1 with
    | nil => rfl
    | cons h _ ih => simp [h.1, ih]
  refine ⟨.dict es', .dict he1 h1.length.symm (fun i a b ha hb => (all2_idx h1 i a b ha hb).1) (fun i a b ha hb => (all2_idx h1 i a b ha hb).2), f0 + 1, fun f hle sib name => ?_⟩
  obtain ⟨f, rfl⟩ : ∃ g, f = g + 1 := ⟨f - 1, by omega⟩
  rw [load_group (type := "<class 'dict'>") (kt := none) (keys := r) (items := items) (by simp [Assoc.get?]) (by simp [keyTypeOf])
    (by rw [visit, if_neg (by decide), hr]) (by rw [← hn2]; exact hf f (by omega))]
  simp only [convert, seqKind, spKind, String.reduceEq, or_self, if_false]
  rw [h2]
  have : dictOf l.env.opaqueEq [] es' = .ok es' := dictOf_differ (by
    rw [List.nil_append, hkeys]
    exact hd.perm (he1.map _))
  simp [bind, Except.bind, this, Except.map]

/-! ### the whole object -/

/-- what `_dump` writes for an object is one member, and it is read as the object -/
theorem dump_fits {l : Libs} (hx : TextOk l.env) (hl : Lists l) {v : PV} (hc : Clean l v) : ∀ fuel i ms ms', dump l fuel v i ms = .ok ms' →
    ∃ n, ms' = ms ++ [(dataName i, n)] ∧ Fits l v n := by
  induction hc with
  | none =>
    intro fuel i ms ms' h
    cases fuel <;> simp only [dump, createDataset, reduceCtorEq] at h
    obtain ⟨_, hms⟩ := put_ok h
    refine ⟨_, hms, .dset (.refl _) fun sib name => ?_⟩
    simp [loadDataset, Assoc.get?, dsetKind]
  | bool b =>
    intro fuel i ms ms' h
    cases fuel <;> simp only [dump, createDataset, reduceCtorEq] at h
    exact createPyNum_fits (by simp [castPy]) h
  | int b =>
    intro fuel i ms ms' h
    cases fuel <;> simp only [dump, createDataset, reduceCtorEq] at h
    exact createPyNum_fits (by simp [castPy]) h
  | float b =>
    intro fuel i ms ms' h
    cases fuel <;> simp only [dump, createDataset, reduceCtorEq] at h
    exact createPyNum_fits (by simp [castPy]) h
  | cplx x y =>
    intro fuel i ms ms' h
    cases fuel <;> simp only [dump, createDataset, reduceCtorEq] at h
    exact createPyNum_fits (by simp [castPy]) h
  | str s hr =>
    intro fuel i ms ms' h
    cases fuel <;> simp only [dump, createDataset, reduceCtorEq] at h
    split at h
    · simp at h
    · split at h
      · simp at h
      · obtain ⟨_, hms⟩ := put_ok h
        refine ⟨_, hms, .dset (.refl _) fun sib name => ?_⟩
        simp [loadDataset, Assoc.get?, dsetKind, hr]
  | bytes b hb =>
    intro fuel i ms ms' h
    cases fuel <;> simp only [dump, createDataset, reduceCtorEq, bind, Except.bind] at h
    cases hd : bytesData l [b] with
    | error e => simp [hd] at h
    | ok d =>
      simp only [hd] at h
      have := bytesData_ok hd (by simpa using hb)
      subst this
      obtain ⟨_, hms⟩ := put_ok h
      refine ⟨_, hms, .dset (.refl _) fun sib name => ?_⟩
      simp [loadDataset, Assoc.get?, dsetKind]
  | np v =>
    intro fuel i ms ms' h
    have key : ∀ {v : NpVal} {i ms ms'}, putMember ms (dataName i) (.dset (.scalar v) [("type", "np_scalar")]) = .ok ms' → ∃ n, ms' = ms ++ [(dataName i, n)] ∧ Fits l (.np v) n := by
      intro v i ms ms' h
      obtain ⟨_, hms⟩ := put_ok h
      refine ⟨_, hms, .dset (.refl _) fun sib name => ?_⟩
      simp [loadDataset, Assoc.get?, dsetKind]
    cases fuel <;> cases v <;> simp only [dump, createDataset, reduceCtorEq] at h
    · exact noMatch_fits h
    · exact key h
    · exact key h
    · exact key h
  | arr a =>
    intro fuel i ms ms' h
    cases fuel <;> simp only [dump, createDataset, reduceCtorEq] at h
    obtain ⟨_, hms⟩ := put_ok h
    refine ⟨_, hms, .dset (.refl _) fun sib name => ?_⟩
    simp [loadDataset, Assoc.get?, dsetKind]
  | sparse k d ix ip shape hb =>
    intro fuel i ms ms' h
    cases fuel <;> simp only [dump, createDataset, reduceCtorEq] at h
    obtain ⟨_, hms⟩ := put_ok h
    exact ⟨_, hms, sparse_fits hl hb k d ix ip shape⟩
  | «opaque» c st =>
    intro fuel i ms ms' h
    cases fuel <;> simp only [dump, createDataset, reduceCtorEq] at h
    exact noMatch_fits h
  | data k items hd hi he =>
    intro fuel i ms ms' h
    cases fuel <;> simp only [dump, reduceCtorEq] at h
    rw [if_pos hd] at h
    cases k with
    | other n => exact noMatch_fits h
    | list => exact createListlike_fits (by simp) hd (hi (by simp)) he h
    | tuple => exact createListlike_fits (by simp) hd (hi (by simp)) he h
    | set => exact createListlike_fits (by simp) hd (hi (by simp)) he h
  | group k items hd hk _ he ih =>
    intro fuel i ms ms' h
    cases fuel <;> simp only [dump, reduceCtorEq] at h
    next fuel =>
    rw [if_neg (by simp [hd])] at h
    simp only [bind, Except.bind] at h
    cases h1 : putMember ms (dataName i) (.group [("type", k.typeName)] []) with
    | error e => simp [h1] at h
    | ok _ =>
      simp only [h1] at h
      cases h2 : dumpItems (dump l fuel) items 0 [] with
      | error e => simp [h2] at h
      | ok sub =>
        simp only [h2] at h
        obtain ⟨_, hms⟩ := put_ok h
        obtain ⟨ns, h3, h4⟩ := dumpItems_fits (fun x hx => ih x hx fuel) h2
        rw [List.nil_append] at h3
        subst h3
        exact ⟨_, hms, seqGroup_fits hl hk he h4⟩
  | dict es hk hd _ hm ih =>
    intro fuel i ms ms' h
    cases fuel <;> simp only [dump, reduceCtorEq] at h
    next fuel =>
    simp only [bind, Except.bind] at h
    cases h1 : putMember ms (dataName i) (.group [("type", "<class 'dict'>")] []) with
    | error e => simp [h1] at h
    | ok _ =>
      simp only [h1] at h
      cases h2 : dumpEntries l (dump l fuel) es [] with
      | error e => simp [h2] at h
      | ok sub =>
        simp only [h2] at h
        obtain ⟨_, hms⟩ := put_ok h
        obtain ⟨new, h3, h4, h5⟩ := dumpEntries_fits hx hk (fun e he sub hs => by
          cases hmask : e.2.isMasked with
          | false =>
            obtain ⟨n, h6, h7⟩ := ih e he hmask fuel 0 [] sub hs
            rw [List.nil_append] at h6
            subst h6
            exact .of_fits hl h7
          | true =>
            cases hv : e.2 <;> simp only [hv, PV.isMasked, reduceCtorEq] at hmask
            rw [hv] at hs
            cases fuel <;> simp only [dump, reduceCtorEq] at hs
            exact .masked hl (hm ⟨e, he, by simp [hv, PV.isMasked]⟩) hs) .nil h2
        rw [List.nil_append] at h3
        subst h3
        exact ⟨_, hms, dict_fits hl hd h4 h5⟩

/-- an object in a new group -/
theorem dump_slot {l : Libs} (hx : TextOk l.env) (hl : Lists l) {v : PV} (hc : CleanTop l v) {fuel : Nat} {sub : Members} (h : dump l fuel v 0 [] = .ok sub) : Slot l v sub := by
  cases hmask : v.isMasked with
  | false =>
    obtain ⟨n, h6, h7⟩ := dump_fits hx hl (hc.1 hmask) fuel 0 [] sub h
    rw [List.nil_append] at h6
    subst h6
    exact .of_fits hl h7
  | true =>
    cases v <;> simp only [PV.isMasked, reduceCtorEq] at hmask
    cases fuel <;> simp only [dump, reduceCtorEq] at h
    exact .masked hl (hc.2 rfl) h

end Verif.V3
