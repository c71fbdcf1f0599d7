import Verif.Props.Parts
import Verif.Props.Examples
/-!
# C07 Distinct dict keys never share a storage slot

Specification: `Distinct` (`Verif/Hickle/Spec.lean`): the keys of a dict are pairwise different by
Python's `is`/`==`.  `TextOk`: which characters the `repr` of a float or complex number is made of.
-/
namespace Verif

variable {P : Nat → Prop}

/-- `repr` of a float can be read back, is made of digits and some of `+-.einfa`, there is a point,
an exponent or an `n` in it (`inf`, `nan`), and it is not just a point.  `repr` of a complex number can be read back, is made of these
characters, brackets and `j`, and there is a `j` in it.  (Python language reference; not part of hickle.) -/
structure TextOk (env : Env) : Prop where
  readF : ∀ x, env.parseF (env.reprF x) = some x
  charsF : ∀ x, ∀ c ∈ env.reprF x, c ∈ ps "0123456789+-.einfa"
  pointF : ∀ x, ∃ c ∈ env.reprF x, c ∈ ps ".en"
  dotF : ∀ x, env.reprF x ≠ ps "."
  readC : ∀ x y, env.parseC (env.reprC x y) = some (x, y)
  charsC : ∀ x y, ∀ c ∈ env.reprC x y, c ∈ ps "0123456789+-.einfa()j"
  jC : ∀ x y, 106 ∈ env.reprC x y

theorem TextOk.injF {env : Env} (h : TextOk env) {x y : F64} (he : env.reprF x = env.reprF y) : x = y := by
  have := h.readF x
  rw [he, h.readF] at this
  simpa using this.symm

theorem TextOk.injC {env : Env} (h : TextOk env) {x y x' y' : F64} (he : env.reprC x y = env.reprC x' y') : x = x' ∧ y = y' := by
  have := h.readC x y
  rw [he, h.readC] at this
  simpa [eq_comm] using this

/-- what a stored name looks like -/
def nameKind (n : PyStr) : Nat :=
  if n.head? = some 34 then 0 else if n[1]? = some 34 then 1 else if 106 ∈ n then 2 else if 116 ∈ n then 3 else if 78 ∈ n then 4 else
  if 84 ∈ n then 5 else if 70 ∈ n then 6 else if (∃ c ∈ n, c = 46 ∨ c = 101 ∨ c = 110) then 7 else 8

theorem kind_str (s : PyStr) : nameKind (34 :: s ++ [34]) = 0 := by simp [nameKind]

theorem kind_bytes (s : PyStr) : nameKind (98 :: 34 :: s ++ [34]) = 1 := by simp [nameKind]

theorem no34 {n : PyStr} (h : 34 ∉ n) : n.head? ≠ some 34 ∧ n[1]? ≠ some 34 :=
  ⟨fun e => h (List.mem_of_mem_head? (by rw [e]; rfl)), fun e => h (List.mem_of_getElem? e)⟩

theorem kind_data (i : Nat) : nameKind (dataName i) = 3 := by
  have hp : ps "data" = [100, 97, 116, 97] := by decide
  have hd : ∀ c, isDigit c = false → c ∉ digits i := by
    intro c hc hm
    have := digits_isDigit i c hm
    rw [hc] at this; simp at this
  simp [nameKind, dataName, hp, hd 106 (by decide)]

theorem kind_int (i : Int) : nameKind (showInt i) = 8 := by
  have hd : ∀ c, isDigit c = false → c ≠ 45 → c ∉ showInt i := by
    intro c hc h45 hm
    rcases showInt_chars i c hm with h | h
    · rw [hc] at h; simp at h
    · exact h45 h
  obtain ⟨h1, h2⟩ := no34 (hd 34 (by decide) (by decide))
  have h3 : ¬ ∃ c ∈ showInt i, c = 46 ∨ c = 101 ∨ c = 110 := by
    rintro ⟨c, hm, rfl | rfl | rfl⟩
    · exact hd _ (by decide) (by decide) hm
    · exact hd _ (by decide) (by decide) hm
    · exact hd _ (by decide) (by decide) hm
  simp only [nameKind, if_neg h1, if_neg h2, if_neg (hd 106 (by decide) (by decide)), if_neg (hd 116 (by decide) (by decide)),
    if_neg (hd 78 (by decide) (by decide)), if_neg (hd 84 (by decide) (by decide)), if_neg (hd 70 (by decide) (by decide)), if_neg h3]

theorem kind_float {env : Env} (ht : TextOk env) (x : F64) : nameKind (env.reprF x) = 7 := by
  have hd : ∀ c, c ∉ ps "0123456789+-.einfa" → c ∉ env.reprF x := fun c hc hm => hc (ht.charsF x c hm)
  obtain ⟨h1, h2⟩ := no34 (hd 34 (by decide))
  have h3 : ∃ c ∈ env.reprF x, c = 46 ∨ c = 101 ∨ c = 110 := by
    obtain ⟨c, h1, h2⟩ := ht.pointF x
    have hp : ps ".en" = [46, 101, 110] := by decide
    rw [hp] at h2
    exact ⟨c, h1, by simpa using h2⟩
  simp only [nameKind, if_neg h1, if_neg h2, if_neg (hd 106 (by decide)), if_neg (hd 116 (by decide)),
    if_neg (hd 78 (by decide)), if_neg (hd 84 (by decide)), if_neg (hd 70 (by decide)), if_pos h3]

theorem kind_cplx {env : Env} (ht : TextOk env) (x y : F64) : nameKind (env.reprC x y) = 2 := by
  have hd : ∀ c, c ∉ ps "0123456789+-.einfa()j" → c ∉ env.reprC x y := fun c hc hm => hc (ht.charsC x y c hm)
  obtain ⟨h1, h2⟩ := no34 (hd 34 (by decide))
  simp only [nameKind, if_neg h1, if_neg h2, if_pos (ht.jC x y)]

/-- kinds of the texts of `repr` -/
theorem kind_repr {env : Env} (ht : TextOk env) {v : Val} {r : PyStr} (h : reprKey env v = .ok r) :
    (v = .none ∧ nameKind r = 4) ∨ (v = .bool true ∧ nameKind r = 5) ∨ (v = .bool false ∧ nameKind r = 6) ∨
    (∃ i, v = .int i ∧ r = showInt i ∧ nameKind r = 8) ∨ (∃ x, v = .float x ∧ r = env.reprF x ∧ nameKind r = 7) ∨
    (∃ x y, v = .cplx x y ∧ r = env.reprC x y ∧ nameKind r = 2) := by
  cases v with
  | none => simp [reprKey] at h; subst h; exact .inl ⟨rfl, by decide⟩
  | bool b =>
    simp only [reprKey, Except.ok.injEq] at h; subst h
    cases b
    · exact .inr (.inr (.inl ⟨rfl, by decide⟩))
    · exact .inr (.inl ⟨rfl, by decide⟩)
  | int i =>
    simp only [reprKey] at h
    split at h
    · simp at h; subst h; exact .inr (.inr (.inr (.inl ⟨i, rfl, rfl, kind_int i⟩)))
    · simp at h
  | float x => simp [reprKey] at h; subst h; exact .inr (.inr (.inr (.inr (.inl ⟨x, rfl, rfl, kind_float ht x⟩))))
  | cplx x y => simp [reprKey] at h; subst h; exact .inr (.inr (.inr (.inr (.inr ⟨x, y, rfl, rfl, kind_cplx ht x y⟩))))
  | _ => simp [reprKey] at h

/-- what a stored name says about the key -/
theorem kind_slot {env : Env} {o : Obj} {r : PyStr} {kbt : String} (h : keySlot env o = .ok (some (r, kbt))) :
    (∃ s, o.val = .str s ∧ r = 34 :: s ++ [34] ∧ nameKind r = 0) ∨
    (∃ b s, o.val = .bytes b ∧ utf8Decode b = some s ∧ r = 98 :: 34 :: s ++ [34] ∧ nameKind r = 1) ∨ reprKey env o.val = .ok r := by
  unfold keySlot at h
  simp only [] at h
  split at h
  · next s hs =>
    split at h
    · simp at h
    · simp only [Except.ok.injEq, Option.some.injEq, Prod.mk.injEq] at h
      obtain ⟨rfl, _⟩ := h
      exact .inl ⟨s, hs, rfl, kind_str s⟩
  · next b hb =>
    split at h
    · simp at h
    · split at h
      · simp at h
      · next s hs =>
        simp only [Except.ok.injEq, Option.some.injEq, Prod.mk.injEq] at h
        obtain ⟨rfl, _⟩ := h
        exact .inr (.inl ⟨b, s, hb, hs, rfl, kind_bytes s⟩)
  · split at h
    · split at h
      · simp at h
      · next r' hr =>
        split at h
        · simp at h
        · simp only [Except.ok.injEq, Option.some.injEq, Prod.mk.injEq] at h
          obtain ⟨rfl, _⟩ := h
          exact .inr (.inr hr)
    · simp at h

/-- keys with the same stored name have the same value -/
theorem slot_inj {env : Env} (ht : TextOk env) {o o' : Obj} {r : PyStr} {kbt kbt' : String} (h : keySlot env o = .ok (some (r, kbt)))
    (h' : keySlot env o' = .ok (some (r, kbt'))) : o.val = o'.val := by
  rcases kind_slot h with ⟨s, e1, e2, e3⟩ | ⟨b, s, e1, e0, e2, e3⟩ | e <;>
  rcases kind_slot h' with ⟨s', f1, f2, f3⟩ | ⟨b', s', f1, f0, f2, f3⟩ | f
  · rw [e1, f1]; rw [e2] at f2; simp at f2; rw [f2]
  · omega
  · have := kind_repr ht f; rw [e3] at this; simp at this
  · omega
  · rw [e1, f1]; rw [e2] at f2; simp at f2; subst f2
    have h1 := utf8Encode_decode e0
    have h2 := utf8Encode_decode f0
    simp_all
  · have := kind_repr ht f; rw [e3] at this; simp at this
  · have := kind_repr ht e; rw [f3] at this; simp at this
  · have := kind_repr ht e; rw [f3] at this; simp at this
  · rcases kind_repr ht e with ⟨e1, e3⟩ | ⟨e1, e3⟩ | ⟨e1, e3⟩ | ⟨x, e1, e2, e3⟩ | ⟨x, e1, e2, e3⟩ | ⟨x, y, e1, e2, e3⟩ <;>
    rcases kind_repr ht f with ⟨f1, f3⟩ | ⟨f1, f3⟩ | ⟨f1, f3⟩ | ⟨x', f1, f2, f3⟩ | ⟨x', f1, f2, f3⟩ | ⟨x', y', f1, f2, f3⟩ <;>
    first
      | (rw [e3] at f3; simp at f3; done)
      | (rw [e1, f1]; done)
      | (rw [e2] at f2; rw [e1, f1, showInt_inj f2]; done)
      | (rw [e2] at f2; rw [e1, f1, ht.injF f2]; done)
      | (rw [e2] at f2; obtain ⟨rfl, rfl⟩ := ht.injC f2; rw [e1, f1])

theorem dataName_inj {i j : Nat} (h : dataName i = dataName j) : i = j := digits_inj (List.append_cancel_left h)

/-- a float NaN, or a complex number with a NaN part -/
def Obj.IsNan (o : Obj) : Prop := o.val = .float .nan ∨ ∃ x y, o.val = .cplx x y ∧ (x = .nan ∨ y = .nan)

theorem f64_val_nan {x : F64} (h : x.val = .nan) : x = .nan := by
  cases x <;> simp [F64.val] at h; rfl

/-- an object that is not a NaN equals every object with the same value that has a name -/
theorem eqv_of_val {env : Env} {H : Heap} {a b : Addr} {o o' : Obj} {r : PyStr} {kbt : String} (ha : H[a]? = some o) (hb : H[b]? = some o') (hv : o.val = o'.val)
    (hs : keySlot env o = .ok (some (r, kbt))) (hn : ¬ o.IsNan) :
    ∃ v w, view env.u H a = some v ∧ view env.u H b = some w ∧ KV.eqv env.opaqueEq v w = true := by
  obtain ⟨cl, v⟩ := o
  obtain ⟨cl', v'⟩ := o'
  simp only at hv; subst hv
  have num : ∀ x : XR × XR, ¬ (x.1 = .nan ∨ x.2 = .nan) → KV.eqv env.opaqueEq (KV.ofNum a x) (KV.ofNum b x) = true := by
    intro x hx
    simp only [KV.ofNum, if_neg hx, KV.eqv, decide_true]
  cases v with
  | none => exact ⟨_, _, by simp only [view, keyView, ha]; rfl, by simp only [view, keyView, hb]; rfl, by simp [KV.eqv]⟩
  | str s => exact ⟨_, _, by simp only [view, keyView, ha]; rfl, by simp only [view, keyView, hb]; rfl, by simp [KV.eqv]⟩
  | bytes s => exact ⟨_, _, by simp only [view, keyView, ha]; rfl, by simp only [view, keyView, hb]; rfl, by simp [KV.eqv]⟩
  | bool x => exact ⟨_, _, by simp only [view, keyView, ha, Val.num?, Option.map_some]; rfl, by simp only [view, keyView, hb, Val.num?, Option.map_some], num _ (by simp [NpVal.val])⟩
  | int x => exact ⟨_, _, by simp only [view, keyView, ha, Val.num?, Option.map_some]; rfl, by simp only [view, keyView, hb, Val.num?, Option.map_some], num _ (by simp [NpVal.val])⟩
  | float x =>
    refine ⟨_, _, by simp only [view, keyView, ha, Val.num?, Option.map_some]; rfl, by simp only [view, keyView, hb, Val.num?, Option.map_some], num _ ?_⟩
    rintro (h | h)
    · exact hn (.inl (by simp only [NpVal.val] at h; rw [f64_val_nan h]))
    · simp [NpVal.val] at h
  | cplx x y =>
    refine ⟨_, _, by simp only [view, keyView, ha, Val.num?, Option.map_some]; rfl, by simp only [view, keyView, hb, Val.num?, Option.map_some], num _ ?_⟩
    rintro (h | h)
    · exact hn (.inr ⟨x, y, rfl, .inl (f64_val_nan h)⟩)
    · exact hn (.inr ⟨x, y, rfl, .inr (f64_val_nan h)⟩)
  | _ => simp only [keySlot, reprKey] at hs; split at hs <;> simp at hs

/-- **C07.**  Two entries of a dict are stored under the same name only if their keys are both NaN. -/
theorem C07_names {env : Env} (ht : TextOk env) {H : Heap} {es : List (Addr × Addr)} (hd : Distinct env H (es.map Prod.fst)) {i j : Nat} (hij : i ≠ j)
    {k v k' v' : Addr} (hi : es[i]? = some (k, v)) (hj : es[j]? = some (k', v')) {sb sb' : Sub} (h : dictSub env H i k v = .ok sb)
    (h' : dictSub env H j k' v' = .ok sb') (hn : sb.name = sb'.name) :
    ∃ o o', H[k]? = some o ∧ H[k']? = some o' ∧ o.IsNan ∧ o'.IsNan := by
  have data : ∀ {o : Obj} {r kbt n}, keySlot env o = .ok (some (r, kbt)) → r ≠ dataName n := by
    intro o r kbt n hs e
    have hk := kind_data n
    rw [← e] at hk
    rcases kind_slot hs with ⟨s, _, _, e3⟩ | ⟨b, s, _, _, _, e3⟩ | e'
    · omega
    · omega
    · have := kind_repr ht e'; rw [hk] at this; simp at this
  unfold dictSub at h h'
  split at h
  · simp at h
  next o ho =>
  split at h'
  · simp at h'
  next o' ho' =>
  split at h
  · simp at h
  · next name kbt hs =>
    simp only [Except.ok.injEq] at h; subst h
    split at h'
    · simp at h'
    · next name' kbt' hs' =>
      simp only [Except.ok.injEq] at h'; subst h'
      simp only at hn; subst hn
      have hv := slot_inj ht hs hs'
      by_cases hnan : o.IsNan
      · exact ⟨o, o', ho, ho', hnan, by unfold Obj.IsNan at hnan ⊢; rw [← hv]; exact hnan⟩
      · exfalso
        obtain ⟨x, y, e1, e2, e3⟩ := eqv_of_val ho ho' hv hs hnan
        have hp := hd.2
        have hi' : (es.map Prod.fst)[i]? = some k := by simp [hi]
        have hj' : (es.map Prod.fst)[j]? = some k' := by simp [hj]
        obtain ⟨li, gi⟩ := List.getElem?_eq_some_iff.1 hi'
        obtain ⟨lj, gj⟩ := List.getElem?_eq_some_iff.1 hj'
        rw [List.pairwise_iff_getElem] at hp
        rcases Nat.lt_or_gt_of_ne hij with hlt | hlt
        · have := (hp i j li lj hlt x y (by rw [gi]; exact e1) (by rw [gj]; exact e2)).1
          rw [e3] at this; simp at this
        · have := (hp j i lj li hlt y x (by rw [gj]; exact e2) (by rw [gi]; exact e1)).2
          rw [e3] at this; simp at this
    · simp only [Except.ok.injEq] at h'; subst h'
      exact absurd hn (data hs)
  · simp only [Except.ok.injEq] at h; subst h
    split at h'
    · simp at h'
    · next name' kbt' hs' =>
      simp only [Except.ok.injEq] at h'; subst h'
      exact absurd hn.symm (data hs')
    · simp only [Except.ok.injEq] at h'; subst h'
      exact absurd (dataName_inj hn) hij

theorem dictSubs_at {env : Env} {H : Heap} {es : List (Addr × Addr)} {i b : Nat} {k v : Addr} (h : es[i]? = some (k, v)) :
    (dictSubs env H b es)[i]? = some (dictSub env H (b + i) k v) := by
  induction es generalizing i b with
  | nil => simp at h
  | cons e es ih =>
    obtain ⟨k', v'⟩ := e
    cases i with
    | zero => simp at h; obtain ⟨rfl, rfl⟩ := h; rfl
    | succ i =>
      simp only [dictSubs, List.getElem?_cons_succ] at h ⊢
      rw [ih h]; congr 2; omega

/-- the links of a group in order -/
theorem Kids.get {base : Nat} {H : Heap} {S : Store} {W : Rel} {ls subs} (h : Kids base H S W ls subs) {i : Nat} {r : Except PyErr Sub} (hs : subs[i]? = some r) :
    ∃ sb m, r = .ok sb ∧ ls[i]? = some (sb.name, m) := by
  induction h generalizing i with
  | nil => simp at hs
  | @cons sb a m ls subs _ _ _ _ ih =>
    cases i with
    | zero => simp at hs; subst hs; exact ⟨sb, m, rfl, rfl⟩
    | succ i => simp only [List.getElem?_cons_succ] at hs ⊢; exact ih hs

/-- the members of the group of a dict: one for each entry, with different names -/
theorem GoodDump.slots {a : DumpArgs} {s s' : Session} (h : GoodDump P a s s') {c : Addr} {cl : Cls} {es : List (Addr × Addr)}
    (hr : Reach a.heap a.obj c) (hc : a.heap[c]? = some ⟨cl, .dict es⟩) {e : Addr × Addr} (he : e ∈ es) :
    ∃ n ls, s'.store.links n = some ls ∧ (∀ i k v, es[i]? = some (k, v) → ∃ sb m, dictSub a.env a.heap i k v = .ok sb ∧ ls[i]? = some (sb.name, m)) ∧
      (ls.map Prod.fst).Nodup ∧ (ls.map Prod.snd).Nodup := by
  obtain ⟨H', W, g, T, m, N, M', hs⟩ := h.stored
  have hd := hs.dumped
  have hc' := getElem?_prefix hd.pre hc
  have hpart : PartOk a.env H' W (fun _ => True) c := h.partOk hd hr
  have hch : (Val.dict es).children ≠ [] := by
    intro h0
    have : e.1 ∈ (Val.dict es).children := by
      simp only [Val.children, List.mem_flatMap]; exact ⟨e, he, by simp⟩
    rw [h0] at this; simp at this
  cases hpart with
  | name q nm kbt hq hk _ =>
    rw [hc'] at hq; simp at hq; subst hq
    exact absurd (keySlot_atom hk) hch
  | num q v hq hv =>
    rw [hc'] at hq; simp at hq; subst hq
    exact absurd (exactNum_children hv) hch
  | node n hw _ =>
    obtain ⟨q, nd, od, subs, h1, h2, h3, h4, h5⟩ := hd.nodes n c hw
    rw [hc'] at h1; simp at h1; subst h1
    generalize hfn : (expected a.env cl).2.fn = fn at h4
    cases h4 with
    | none => exact absurd ((h.graph.cls c _ hc).2.none_children hfn) hch
    | dict hv =>
      simp at hv; subst hv
      obtain ⟨ls, hb, hk⟩ := h5
      have hl := Store.links_of h2 hb
      have ht := h.file'.tree
      refine ⟨n, ls, hl, ?_, ?_, ?_⟩
      · intro i k v hi
        obtain ⟨sb, m, e1, e2⟩ := hk.get (dictSubs_at (env := a.env) (H := H') (b := 0) hi)
        refine ⟨sb, m, ?_, e2⟩
        rw [Nat.zero_add] at e1
        rw [← e1]
        have hlt : k < a.heap.length := h.graph.wf c _ hc k (by
          simp only [Val.children, List.mem_flatMap]; exact ⟨(k, v), List.mem_of_getElem? hi, by simp⟩)
        unfold dictSub
        rw [getElem?_prefix hd.pre (List.getElem?_eq_getElem hlt), List.getElem?_eq_getElem hlt]
      · exact List.pairwise_map.2 (ht.names n ls hl)
      · refine List.pairwise_map.2 ?_
        refine List.Pairwise.imp_of_mem ?_ (ht.names n ls hl)
        intro x y hx hy hne he
        exact hne (by rw [(ht.one n n ls ls hl hl x hx y hy he).2])
    | rowsNil h => cases h <;> simp_all
    | rows h => cases h <;> simp_all
    | oseq h => cases h <;> simp_all
    | _ => simp_all

/-- **C07 in the file.**  When `dump` returns, every dict that is part of the object is a group with one member for
each entry; no two entries share a name or a member. -/
theorem C07_slots {a : DumpArgs} {s s' : Session} (h : GoodDump P a s s') {c : Addr} {cl : Cls} {es : List (Addr × Addr)}
    (hr : Reach a.heap a.obj c) (hc : a.heap[c]? = some ⟨cl, .dict es⟩) {e : Addr × Addr} (he : e ∈ es) :
    ∃ n ls, s'.store.links n = some ls ∧ es.length ≤ ls.length ∧ (ls.map Prod.fst).Nodup ∧ (ls.map Prod.snd).Nodup := by
  obtain ⟨n, ls, h1, h2, h3, h4⟩ := h.slots hr hc he
  refine ⟨n, ls, h1, ?_, h3, h4⟩
  rcases Nat.lt_or_ge ls.length es.length with hlt | hge
  · obtain ⟨sb, m, _, e2⟩ := h2 ls.length _ _ (List.getElem?_eq_getElem hlt)
    simp at e2
  · exact hge

/-- the keys `nan` of one dict: `dump` refuses a second one.  (Never returns: contraposition of the above.) -/
theorem C07_nan {a : DumpArgs} {s s' : Session} (h : GoodDump P a s s') {c : Addr} {cl : Cls} {es : List (Addr × Addr)}
    (hr : Reach a.heap a.obj c) (hc : a.heap[c]? = some ⟨cl, .dict es⟩) {i j : Nat} {k v k' v' : Addr} (hi : es[i]? = some (k, v)) (hj : es[j]? = some (k', v'))
    (hk : a.heap[k]? = some ⟨.float, .float .nan⟩) (hk' : a.heap[k']? = some ⟨.float, .float .nan⟩) : i = j := by
  obtain ⟨n, ls, h1, h2, h3, h4⟩ := h.slots hr hc (List.mem_of_getElem? hi)
  obtain ⟨sb, m, e1, e2⟩ := h2 i k v hi
  obtain ⟨sb', m', f1, f2⟩ := h2 j k' v' hj
  have hn : sb.name = sb'.name := by
    have hsl := (h.graph.keys c _ es hc rfl).2 k v (List.mem_of_getElem? hi) _ hk
    have hd : dictKeyTypes.contains (Cls.float.name a.env.u) = true := by simp only [Cls.name]; decide
    simp only [dictSub, hk, hk', keySlot, hd, if_true, reprKey, (hsl.2.2.2.2.1 .nan rfl).2, Bool.false_eq_true, if_false, Except.ok.injEq] at e1 f1
    subst e1 f1; rfl
  have hi' : (ls.map Prod.fst)[i]? = some sb.name := by simp [e2]
  have hj' : (ls.map Prod.fst)[j]? = some sb.name := by simp [f2, hn]
  obtain ⟨li, gi⟩ := List.getElem?_eq_some_iff.1 hi'
  obtain ⟨lj, gj⟩ := List.getElem?_eq_some_iff.1 hj'
  unfold List.Nodup at h3
  rw [List.pairwise_iff_getElem] at h3
  rcases Nat.lt_trichotomy i j with hlt | heq | hlt
  · exact absurd (gi.trans gj.symm) (h3 i j li lj hlt)
  · exact heq
  · exact absurd (gj.trans gi.symm) (h3 j i lj li hlt)

theorem Ex.textOk : TextOk Ex.env := by
  have dig : ∀ c, isDigit c = true → c ∈ ps "0123456789+-.einfa" := by
    intro c hc
    have : ps "0123456789+-.einfa" = [48, 49, 50, 51, 52, 53, 54, 55, 56, 57, 43, 45, 46, 101, 105, 110, 102, 97] := by decide
    rw [this]
    simp [isDigit] at hc
    simp only [List.mem_cons, List.not_mem_nil, or_false]; omega
  have chars : ∀ x, ∀ c ∈ Ex.reprF x, c ∈ ps "0123456789+-.einfa" := by
    intro x c hc
    rcases Ex.reprF_chars x c hc with h | h | h | h | h | h | h
    · exact dig c h
    all_goals (subst h; decide)
  have nodot : ∀ x, Ex.reprF x ≠ ps "." := by
    intro x h
    have hp : ps "." = [46] := by decide
    have := Ex.reprF_chars x 46 (by rw [h, hp]; simp)
    simp [isDigit] at this
  refine ⟨Ex.parse_repr, chars, ?_, nodot, Ex.parse_reprC, ?_, ?_⟩
  · intro x
    cases x with
    | nan => exact ⟨110, by decide, by decide⟩
    | inf b => exact ⟨110, by cases b <;> decide, by decide⟩
    | fin b m e => exact ⟨101, by show 101 ∈ Ex.reprF (.fin b m e); simp [Ex.reprF], by decide⟩
  · intro x y c hc
    have sub : ∀ c, c ∈ ps "0123456789+-.einfa" → c ∈ ps "0123456789+-.einfa()j" := by decide
    change c ∈ Ex.reprC x y at hc
    simp only [Ex.reprC, List.mem_cons, List.mem_append, List.not_mem_nil, or_false] at hc
    rcases hc with h | h | h | h | h | h
    · subst h; decide
    · exact sub c (chars x c h)
    · subst h; decide
    · exact sub c (chars y c h)
    · subst h; decide
    · subst h; decide
  · intro x y
    show 106 ∈ Ex.reprC x y
    simp [Ex.reprC]

/-- A dict with the keys `1.0`, `"1e0"`, `b"1e0"`, `"data0"`, `(2,)`, `2` and `"2"`. -/
def C07.heap : Heap := [
  ⟨.float, .float (.fin false 1 0)⟩, ⟨.str, .str (ps "1e0")⟩, ⟨.bytes, .bytes [49, 101, 48]⟩, ⟨.str, .str (ps "data4")⟩, ⟨.int, .int 2⟩,
  ⟨.tuple, .seq [4]⟩, ⟨.str, .str (ps "2")⟩, ⟨.noneType, .none⟩, ⟨.dict, .dict [(0, 7), (1, 7), (2, 7), (3, 7), (5, 7), (4, 7), (6, 7)]⟩]

example : Distinct Ex.env C07.heap [0, 1, 2, 3, 5, 4, 6] := distinct_of (by decide +kernel)

example : ∃ s', GoodDump (fun _ => True) (Ex.args C07.heap 8) Ex.file0 s' ∧ ∃ n ls, s'.store.links n = some ls ∧ 7 ≤ ls.length ∧
    (ls.map Prod.fst).Nodup ∧ (ls.map Prod.snd).Nodup := by
  obtain ⟨s', h⟩ := Ex.good_of (H := C07.heap) (obj := 8) (by decide +kernel)
  exact ⟨s', h, C07_slots h .here rfl (e := (0, 7)) (by decide +kernel)⟩

/-- two NaN keys: `dump` raises `ValueError` -/
example : Ex.raised (dumpTop (Ex.args [⟨.float, .float .nan⟩, ⟨.float, .float .nan⟩, ⟨.noneType, .none⟩, ⟨.dict, .dict [(0, 2), (1, 2)]⟩] 3) Ex.file0).1 =
    some .valueError := by decide +kernel

end Verif
