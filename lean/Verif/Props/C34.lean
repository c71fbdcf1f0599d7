import Verif.Props.Values
/-!
# C34 Sparse and masked arrays keep their parts apart

`Loads` ranges over every order in which the members of a group may be read.
-/
namespace Verif

variable {P : Nat → Prop}

/-- **C34, sparse matrices.**  A csr, csc or bsr matrix at the end of any path loads as a matrix of the same format and shape, whose
`data`, `indices` and `indptr` are the arrays that had these roles, with the same dtype, shape and elements. -/
theorem C34_sparse {a : DumpArgs} {s s' : Session} (h : GoodDump P a s s') {π : List Step} {c : Addr} {cl : Cls} {data indices indptr : Addr}
    {shape : List Nat} (hf : follow a.heap a.obj π = some c) (hc : a.heap[c]? = some ⟨cl, .sparse data indices indptr shape⟩) :
    Loads P a.env s'.store a.path fun L b => ∃ x data' indices' indptr' : Addr, follow L b π = some x ∧ L[x]? = some ⟨cl, .sparse data' indices' indptr' shape⟩ ∧
      ∃ o1 o2 o3 : Obj, (a.heap[data]? = some o1 ∧ L[data']? = some o1) ∧ (a.heap[indices]? = some o2 ∧ L[indices']? = some o2) ∧
        a.heap[indptr]? = some o3 ∧ L[indptr']? = some o3 := by
  have hparts := h.graph.sparse c _ _ _ _ _ hc rfl
  refine h.loads.imp fun L b hl => ?_
  obtain ⟨⟨R, N, Q, hl⟩, _⟩ := hl
  rcases hl.follow π (.inl hl.1) with ⟨_, h2⟩ | ⟨x, z, h1, h2, h3⟩
  · rw [hf] at h2; simp at h2
  · rw [hf] at h2; simp at h2; subst h2
    have hR := hl.shared hc rfl h3
    obtain ⟨⟨cl0, val⟩, ⟨cl', val'⟩, e1, e2, e3, e4⟩ := hl.2.1 x c hR
    rw [hc] at e1; simp at e1; obtain ⟨rfl, rfl⟩ := e1
    simp only at e3 e4
    subst e3
    cases e4 with
    | atom ha => simp [Val.isAtom] at ha
    | sparse g1 g2 g3 =>
      have part : ∀ {y z : Addr}, R y z → z ∈ [data, indices, indptr] → ∃ o, a.heap[z]? = some o ∧ L[y]? = some o := by
        intro y z hR hz
        obtain ⟨t, sh, l, he⟩ := hparts z hz
        exact ⟨_, he, hl.atom (.inl hR) he rfl⟩
      obtain ⟨o1, p1⟩ := part g1 (by simp)
      obtain ⟨o2, p2⟩ := part g2 (by simp)
      obtain ⟨o3, p3⟩ := part g3 (by simp)
      exact ⟨x, _, _, _, h1, e2, o1, o2, o3, p1, p2, p3⟩

/-- **C34, masked arrays.**  A masked array at the end of any path loads as a masked array with the same dtype, shape and data and the
same mask (`none`: `numpy.ma.nomask`). -/
theorem C34_masked {a : DumpArgs} {s s' : Session} (h : GoodDump P a s s') {π : List Step} {c : Addr} {cl : Cls} {d : DT} {shape : List Nat}
    {data : List NpVal} {mask : Option (List Bool)} (hf : follow a.heap a.obj π = some c) (hc : a.heap[c]? = some ⟨cl, .masked d shape data mask⟩) :
    Loads P a.env s'.store a.path fun L b => ∃ x : Addr, follow L b π = some x ∧ L[x]? = some ⟨cl, .masked d shape data mask⟩ :=
  h.loads.imp fun _ _ hl => hl.1.exact_nonum hf hc (by cases cl <;> rfl) rfl

/-- a csc matrix with `data` and `indices` of the same type and length; a bsr matrix that shares an array with it; masked arrays with a mask
and without; an array of booleans whose data could be taken for a mask -/
def C34.heap : Heap := [
  ⟨.ndarray, .arr .int64 [2] [.i 7, .i 8]⟩, ⟨.ndarray, .arr .int64 [2] [.i 0, .i 1]⟩, ⟨.ndarray, .arr .int64 [3] [.i 0, .i 1, .i 2]⟩,
  ⟨.ndarray, .arr .float64 [2, 1, 1] [.f (.fin false 1 0), .f .nan]⟩,
  ⟨.csc, .sparse 0 1 2 [2, 2]⟩, ⟨.bsr, .sparse 3 1 2 [2, 2]⟩,
  ⟨.masked, .masked .bool [2] [.b true, .b false] (some [false, true])⟩, ⟨.masked, .masked .int64 [] [.i 1] none⟩,
  ⟨.tuple, .seq [4, 5, 6, 7]⟩]

example : ∃ s', GoodDump (fun _ => True) (Ex.args C34.heap 8) Ex.file0 s' ∧
    (Loads (fun _ => True) Ex.env s'.store [] fun L b => ∃ x data' indices' indptr' : Addr, follow L b [.item 0] = some x ∧
      L[x]? = some ⟨.csc, .sparse data' indices' indptr' [2, 2]⟩ ∧ L[data']? = some ⟨.ndarray, .arr .int64 [2] [.i 7, .i 8]⟩ ∧
      L[indices']? = some ⟨.ndarray, .arr .int64 [2] [.i 0, .i 1]⟩) ∧
    Loads (fun _ => True) Ex.env s'.store [] fun L b => ∃ x : Addr, follow L b [.item 2] = some x ∧
      L[x]? = some ⟨.masked, .masked .bool [2] [.b true, .b false] (some [false, true])⟩ := by
  obtain ⟨s', h⟩ := Ex.good_of (H := C34.heap) (obj := 8) (by decide +kernel)
  refine ⟨s', h, (C34_sparse h (π := [.item 0]) rfl rfl).imp ?_, C34_masked h rfl rfl⟩
  rintro L b ⟨x, d, i, p, h1, h2, o1, o2, o3, ⟨e1, e2⟩, ⟨e3, e4⟩, _⟩
  have e1 : some _ = some o1 := e1
  have e3 : some _ = some o2 := e3
  cases e1; cases e3
  exact ⟨x, d, i, p, h1, h2, e2, e4⟩

end Verif
