import Verif.Hickle.Memory
import Verif.Props.Examples
/-!
# C23 Compression keywords never change what is stored or whether it can be stored
-/
namespace Verif

/-! ### the objects during a dump -/

/-- an array without dimensions -/
def Obj.zeroD : Obj → Bool
  | ⟨_, .arr _ [] _⟩ | ⟨_, .masked _ [] _ _⟩ => true
  | _ => false

/-- no object of a running dump is an array without dimensions -/
def NoZeroD (h : Heap) : Prop := ∀ o ∈ h, o.zeroD = false

theorem nestBlock_mem {c : Cls} {q : Obj} : ∀ {sh : List Nat} {ls : List Leaf} {st : Nat}, q ∈ (nestBlock c sh ls st).1 → .obj q ∈ ls ∨ ∃ rows, q = ⟨c, .seq rows⟩ := by
  intro sh
  induction sh with
  | nil =>
    intro ls st h
    match ls with
    | [] => simp [nestBlock] at h
    | .addr a :: _ => simp [nestBlock] at h
    | .obj o :: _ => simp [nestBlock] at h; subst h; exact .inl (by simp)
  | cons n sh ih =>
    intro ls st h
    simp only [nestBlock, List.mem_append, List.mem_singleton] at h
    rcases h with h | h
    · have : ∀ k ls st, q ∈ (nestRows (nestBlock c sh) (shSize sh) k ls st).1 → .obj q ∈ ls ∨ ∃ rows, q = ⟨c, .seq rows⟩ := by
        intro k
        induction k with
        | zero => intro ls st h; simp [nestRows] at h
        | succ k ihk =>
          intro ls st h
          simp only [nestRows, List.mem_append] at h
          rcases h with h | h
          · exact (ih h).imp_left List.mem_of_mem_take
          · exact (ihk _ _ h).imp_left List.mem_of_mem_drop
      exact this _ _ _ h
    · exact .inr ⟨_, h⟩

/-- the objects made for a sub item have dimensions -/
def Sized : Except PyErr Sub → Prop
  | .ok sb => ∀ n, ∀ q ∈ (newObjs sb.obj n).1, q.zeroD = false
  | .error _ => True

theorem SubOf.sized {h : Heap} {o : Obj} {sb : Sub} (hs : SubOf h o sb.obj) (ho : o.zeroD = false) : Sized (.ok sb) := by
  intro n q hq
  cases hso : sb.obj with
  | addr a => rw [hso] at hq; simp [newObjs] at hq
  | pair k v => rw [hso] at hq; simp [newObjs] at hq; subst hq; rfl
  | nest c sh ls =>
    rw [hso] at hq hs
    rcases nestBlock_mem hq with h1 | ⟨rows, rfl⟩
    · obtain ⟨_, ⟨hl, _⟩, _⟩ := hs
      cases hl with
      | objs _ hl _ =>
        simp at h1
        have := hl q h1
        obtain ⟨cl, v⟩ := o
        simp only at this
        cases this with
        | @data d sh => cases sh <;> simp [Obj.zeroD] at ho ⊢
        | _ => rfl
      | addrs => obtain ⟨x, _, hx⟩ := List.mem_map.1 h1; simp at hx
    · rfl

section

/-- `OnState` for the objects alone -/
abbrev NZ : DState → Prop := OnState fun h _ _ => NoZeroD h

theorem dumpCreate_nz {c o p name} (ho : o.zeroD = false) : Keeps NZ (dumpCreate c o p name) (fun r => ∀ sub ∈ r.2.1, Sized sub) := by
  intro s hs
  refine ⟨(dumpCreate_on (fun _ _ _ _ h => h) s hs).1, fun r hr sub hm => ?_⟩
  obtain ⟨n, subs, mem⟩ := r
  rcases dumpCreate_subs (s1 := (dumpCreate c o p name s).2) (by rw [← hr]) sub hm with rfl | rfl | ⟨sb, rfl, h⟩
  · trivial
  · trivial
  · exact h.sized ho

theorem subAddr_nz {sb : Sub} (h : Sized (.ok sb)) : Keeps NZ (subAddr sb.obj) := by
  intro s hs
  rw [subAddr_eq]
  refine ⟨?_, fun _ _ => trivial⟩
  intro q hq
  rcases List.mem_append.1 hq with hq | hq
  · exact hs q hq
  · exact h _ q hq

theorem dumpNode_nz {c : DCtx} (fuel : Nat) : ∀ a p name attrs, Keeps NZ (dumpNode c fuel a p name attrs) := by
  induction fuel with
  | zero => exact fun a p name attrs => .throw _
  | succ fuel ih =>
    intro a p name attrs s hs
    simp only [dumpNode]
    rw [M.bind_of_ok (M.get_apply s)]
    cases Assoc.get? s.memo a with
    | some n => exact (Keeps.bind mkDset_on fun n _ => setAttrs_on) s hs
    | none =>
      simp only []
      cases ho : s.heap[a]? with
      | none => exact Keeps.throw _ s hs
      | some o =>
        simp only []
        refine Keeps.bind (dumpCreate_nz (hs o (List.mem_of_getElem? ho))) (fun r hr => .bind setAttrs_on fun _ _ => .bind (Q := fun _ => True) ?_ fun _ _ => ?_) s hs
        · split
          · exact .modify (fun s hs => hs) trivial
          · exact .pure trivial
        · refine .forEach trivial _ fun sub hm => ?_
          have hz := hr sub hm
          split
          · exact .throw _
          · exact .bind (subAddr_nz hz) fun b _ => ih b _ _ _

/-! ### with and without filters -/

/-- the keywords considered: `compression_opts` goes with `compression` -/
def FilterKw (kw : List Kw) : Prop := (∀ k ∈ kw, k.isSafe = true) ∧ (.compressionOpts ∈ kw → .compression ∈ kw)

theorem noCompression_safe {kw : List Kw} (hk : FilterKw kw) : noCompression kw = [] := by
  unfold noCompression
  rw [List.filter_eq_nil_iff]
  intro k hm
  have := hk.1 k hm
  cases k <;> simp_all [Kw.isSafe, Kw.isFilter]

theorem mkDset_sized {kw : List Kw} (hk : FilterKw kw) {d : Data} (hd : d.unsized = false) (p name) :
    mkDset kw p name d = mkDset [] p name d := by
  have h1 : checkKw kw d = .ok () := by
    unfold checkKw
    rw [hd, if_neg (by simp), if_pos (List.all_eq_true.2 hk.1), if_neg]
    simpa using hk.2
  have h2 : checkKw [] d = .ok () := by
    unfold checkKw
    rw [hd, if_neg (by simp), if_pos (by simp), if_neg (by simp)]
  funext s
  unfold mkDset
  rw [h1, h2]

variable {c : DCtx} (hk : FilterKw c.kw)
include hk

theorem createItems_kw {h items dt p name} : createItems c h items dt p name = createItems { c with kw := [] } h items dt p name := by
  unfold createItems
  split
  · simp only [mkDset_sized hk (d := Data.vec _ _) rfl]
  · rfl
  · rfl

theorem createListlike_kw {h o p name} : createListlike c h o p name = createListlike { c with kw := [] } h o p name := by
  have hn := noCompression_safe hk
  have hn0 : noCompression [] = [] := rfl
  simp only [createListlike, hn, hn0, mkDset_sized hk (d := Data.chars _) rfl, createItems_kw hk]

theorem createRows_kw {n sh ls p name} : createRows c n sh ls p name = createRows { c with kw := [] } n sh ls p name := by
  have hn := noCompression_safe hk
  have hn0 : noCompression [] = [] := rfl
  simp only [createRows, hn, hn0]

theorem createFn_kw {fn h o p name} (ho : o.zeroD = false) : createFn c fn h o p name = createFn { c with kw := [] } fn h o p name := by
  have hn := noCompression_safe hk
  have hn0 : noCompression [] = [] := rfl
  cases fn <;> simp only [createFn]
  · simp only [createScalar, hn, hn0, mkDset_sized hk (d := Data.raw _) rfl]
  · simp only [createNone, hn, hn0]
  · exact createListlike_kw hk
  · simp only [createSetlike, hn, hn0, createItems_kw hk]
  · rfl
  · simp only [createNpScalar, hn, hn0]
  · obtain ⟨cl, v⟩ := o
    cases v <;> simp only [createNpArray]
    next d shape data =>
      rw [mkDset_sized hk]
      cases shape with
      | nil => simp [Obj.zeroD] at ho
      | cons n ns => rfl
    next w shape data => simp only [createStrings, mkDset_sized hk (d := Data.chars _) rfl, createRows_kw hk]
    next shape items => simp only [createObjects, createListlike_kw hk, createRows_kw hk]
  · simp only [createPickled, mkDset_sized hk (d := Data.pickleObj _ _) rfl]

theorem storeType_kw {n cls b} : storeType c n cls b = storeType { c with kw := [] } n cls b := by
  have hn := noCompression_safe hk
  have hn0 : noCompression [] = [] := rfl
  simp only [storeType, typeEntryNode, baseEntry, hn, hn0, mkDset_sized hk (d := Data.pickleCls _) rfl]

theorem dumpCreate_kw {o p name} (ho : o.zeroD = false) : dumpCreate c o p name = dumpCreate { c with kw := [] } o p name := by
  simp only [dumpCreate, createFn_kw hk ho, storeType_kw hk, createPickled, mkDset_sized hk (d := Data.pickleObj _ _) rfl]

/-- the dump of an object does not depend on the keywords -/
theorem dumpNode_kw (fuel : Nat) :
    ∀ a p name attrs s, NZ s → dumpNode c fuel a p name attrs s = dumpNode { c with kw := [] } fuel a p name attrs s := by
  induction fuel with
  | zero => intros; rfl
  | succ fuel ih =>
    intro a p name attrs s hs
    simp only [dumpNode]
    rw [M.bind_of_ok (M.get_apply s), M.bind_of_ok (M.get_apply s)]
    cases Assoc.get? s.memo a with
    | some n => rfl
    | none =>
      simp only []
      cases ho : s.heap[a]? with
      | none => rfl
      | some o =>
        simp only []
        rw [dumpCreate_kw hk (hs o (List.mem_of_getElem? ho))]
        rw [M.bind_apply, M.bind_apply]
        obtain ⟨k1, k0⟩ := dumpCreate_nz (c := { c with kw := [] }) (o := o) (p := p) (name := name) (hs o (List.mem_of_getElem? ho)) s hs
        cases hc : dumpCreate { c with kw := [] } o p name s with
        | mk r s1 =>
          rw [hc] at k1 k0
          cases r with
          | error e => rfl
          | ok r =>
            obtain ⟨n, subs, mem⟩ := r
            replace k0 := k0 _ rfl
            simp only [] at k0 ⊢
            rw [M.bind_apply, M.bind_apply]
            have k2 := (setAttrs_on (J := fun h _ _ => NoZeroD h) (n := n) (l := attrs.filter fun p => p.1 ≠ "type") s1 k1).1
            cases hd : setAttrs n (attrs.filter fun p => p.1 ≠ "type") s1 with
            | mk r s2 =>
              rw [hd] at k2
              cases r with
              | error e => rfl
              | ok r =>
                simp only []
                rw [M.bind_apply, M.bind_apply]
                have k3 : NZ ((if mem = true then M.modify fun s => { s with memo := Assoc.put s.memo a n } else pure () : DM Unit) s2).2 := by
                  cases mem <;> exact k2
                cases he : (if mem = true then M.modify fun s => { s with memo := Assoc.put s.memo a n } else pure () : DM Unit) s2 with
                | mk r s3 =>
                  rw [he] at k3
                  cases r with
                  | error e => rfl
                  | ok r =>
                    simp only []
                    clear hc hd he k1 k2
                    induction subs generalizing s3 with
                    | nil => rfl
                    | cons sub subs ih2 =>
                      simp only [M.forEach]
                      rw [M.bind_apply, M.bind_apply]
                      cases sub with
                      | error e => rfl
                      | ok sub =>
                        simp only []
                        have kz := k0 _ (List.mem_cons_self ..)
                        have k4 := (subAddr_nz kz s3 k3).1
                        have : ((subAddr sub.obj >>= fun b => dumpNode c fuel b n sub.name sub.attrs) : DM Unit) s3 =
                            (subAddr sub.obj >>= fun b => dumpNode { c with kw := [] } fuel b n sub.name sub.attrs) s3 := by
                          rw [M.bind_apply, M.bind_apply]
                          cases hb : subAddr sub.obj s3 with
                          | mk r s4 =>
                            rw [hb] at k4
                            cases r with
                            | error e => rfl
                            | ok b => exact ih b n sub.name sub.attrs s4 k4
                        rw [this]
                        have k5 := (Keeps.bind (subAddr_nz kz) fun b _ => dumpNode_nz (c := { c with kw := [] }) fuel b n sub.name sub.attrs) s3 k3
                        cases hb : (subAddr sub.obj >>= fun b => dumpNode { c with kw := [] } fuel b n sub.name sub.attrs : DM Unit) s3 with
                        | mk r s5 =>
                          rw [hb] at k5
                          cases r with
                          | error e => rfl
                          | ok r => exact ih2 (fun sub hm => k0 sub (List.mem_cons_of_mem _ hm)) s5 k5.1

end

/-- **C23 (partial).**  For every object graph without (numeric or masked) arrays of dimension zero, and every set of the keywords `compression`,
`compression_opts`, `shuffle` and `fletcher32`: the dump with the keywords has the same outcome, exception or not, and leaves the same
file (up to the filters, which the model does not record: HDF5 undoes them on reading) and the same process state as the dump without. -/
theorem C23_partial {a : DumpArgs} (hk : FilterKw a.kw) (hz : ∀ (b : Addr) (o : Obj), a.heap[b]? = some o → o.zeroD = false)
    (s : Session) : dumpTop a s = dumpTop { a with kw := [] } s := by
  have h : ∀ g mgr m, dumpData a g mgr m = dumpData { a with kw := [] } g mgr m := by
    intro g mgr m
    funext s
    unfold dumpData
    cases m.table with
    | none => rfl
    | some T =>
      simp only []
      rw [dumpNode_kw (c := ⟨a.env, mgr, a.kw, T⟩) hk]
      intro o ho
      obtain ⟨i, hi⟩ := List.getElem?_of_mem ho
      exact hz i o hi
  unfold dumpTop
  simp only [h]

/-- hence a later load returns the same -/
theorem C23_load {a : DumpArgs} (hk : FilterKw a.kw) (hz : ∀ (b : Addr) (o : Obj), a.heap[b]? = some o → o.zeroD = false)
    (s : Session) (l : LoadArgs) : loadTop l (dumpTop a s).2 = loadTop l (dumpTop { a with kw := [] } s).2 := by
  rw [C23_partial hk hz]

/-- the example graph, dumped with filters: the hypotheses are met and the dump succeeds -/
example : FilterKw [.compression, .compressionOpts, .shuffle] ∧ (∀ (b : Addr) (o : Obj), Ex.heap[b]? = some o → o.zeroD = false) ∧
    Ex.isOk (dumpTop { Ex.dumpArgs with kw := [.compression, .compressionOpts, .shuffle] } Ex.file0).1 = true := by
  refine ⟨by unfold FilterKw; decide, fun b o h => ?_, by decide +kernel⟩
  have : ∀ o ∈ Ex.heap, o.zeroD = false := by decide +kernel
  exact this o (List.mem_of_getElem? h)

/-- **C23 is violated**: an array of dimension zero, alone or anywhere in a graph, can be dumped and loaded without keywords; with
`compression` (or `shuffle`, or `fletcher32`) `dump` raises `TypeError` (load_numpy.py:126-128 hands the keywords to `create_dataset`). -/
theorem C23_violated : ∃ (H : Heap) (obj : Addr), Ex.isOk (dumpTop (Ex.args H obj) Ex.file0).1 = true ∧ (Ex.roundTrip Ex.env H obj).isSome = true ∧
    ∀ k ∈ [Kw.compression, .shuffle, .fletcher32], Ex.raised (dumpTop { Ex.args H obj with kw := [k] } Ex.file0).1 = some .typeError := by
  refine ⟨[⟨.ndarray, .arr .int64 [] [.i 5]⟩, ⟨.list, .seq [0]⟩], 1, ?_, ?_, ?_⟩ <;> decide +kernel

end Verif
