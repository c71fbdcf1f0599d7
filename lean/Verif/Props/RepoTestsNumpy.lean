import Verif.Props.RepoTests
/-!
# Tests of hickle: numpy and scipy

Continues `RepoTests.lean`.  Left out: dtypes (see C51), bytes in arrays without dimensions, what is written in the format of hickle 4.0.0 (see C47), and
`fail_create_dict`, which is put into the table of loaders by hand.
-/
namespace Verif.Tests

/-! ### test_04_load_numpy.py -/

-- test_create_np_scalar
def npPi : Build := new .npFloat64 (.np (.f (.fin false 884279719003555 (-48))))
example : dataAt npPi ["data"] = some (.scalar (.f (.fin false 884279719003555 (-48)))) ∧ attrAt npPi ["data"] "np_dtype" = some (.dt .float64) ∧ same npPi = true := by
  decide +kernel
example : dataAt (new .npBool (.np (.b true))) ["data"] = some (.scalar (.b true)) ∧ attrAt (new .npBool (.np (.b true))) ["data"] "np_dtype" = some (.dt .bool) ∧
    same (new .npBool (.np (.b true))) = true := by decide +kernel

-- test_create_np_ndarray: an array of one string without dimensions is stored as bytes
def npString : Build := new .ndarray (.sarr 16 [] [ps "im python string"])
example : dataAt npString ["data"] = some (.chars (asciiBytes (ps "im python string"))) ∧ attrAt npString ["data"] "np_dtype" = some (.udt 16) ∧ same npString = true := by
  decide +kernel
-- an array of objects: a group with the items in order, each with its index
def npObjects : Build := do new .ndarray (.oarr [1] [← nested])
example : isGroupAt npObjects ["data"] = some true ∧ attrAt npObjects ["data", "data0"] "item_index" = some (.int 0) ∧ equal npObjects = true := by decide +kernel
-- an array of strings: the same
def npStrings : Build := new .ndarray (.sarr 6 [4] [ps "1313e", ps "was", ps "maybe?", ps "here"])
example : isGroupAt npStrings ["data"] = some true ∧ attrAt npStrings ["data"] "np_dtype" = some (.udt 6) ∧
    ((List.range 4).map fun i => attrAt npStrings ["data", s!"data{i}"] "item_index") = (List.range 4).map (fun i => some (.int i)) := by decide +kernel
-- an array of one object without dimensions: a group with the member `data`
def npObject : Build := do new .ndarray (.oarr [] [← nested])
example : isGroupAt npObject ["data"] = some true ∧ isGroupAt npObject ["data", "data"] = some true ∧ attrAt npObject ["data", "data"] "item_index" = Option.none ∧
    typeAt npObject ["data", "data"] = some (.dict, "dict", true) := by decide +kernel
-- numpy.matrix
def npMatrix : Build := new .matrix (.arr .int64 [2, 2] [.i 1, .i 2, .i 3, .i 4])
example : dataAt npMatrix ["data"] = some (.array .int64 [2, 2] [.i 1, .i 2, .i 3, .i 4]) ∧ attrAt npMatrix ["data"] "np_dtype" = some (.dt .int64) ∧ same npMatrix = true := by
  decide +kernel

-- test_create_np_masked_array
def npMasked : Build := new .masked (.masked .float64 [4] ([1, 2, 3, 4].map fun n => .f (.fin false n 0)) (some [false, true, false, false]))
example : isGroupAt npMasked ["data"] = some true ∧ attrAt npMasked ["data"] "np_dtype" = some (.dt .float64) ∧
    dataAt npMasked ["data", "data"] = some (.array .float64 [4] ([1, 2, 3, 4].map fun n => .f (.fin false n 0))) ∧
    dataAt npMasked ["data", "mask"] = some (.array .bool [4] [.b false, .b true, .b false, .b false]) ∧ same npMasked = true := by decide +kernel

/-! ### test_05_load_scipy.py -/

-- test_create_sparse_dataset
def csr : Build := do
  let d ← ints [1, 2, 3, 4, 5, 6]
  let i ← ints [0, 2, 2, 0, 1, 2]
  let p ← ints [0, 2, 3, 6]
  new .csr (.sparse d i p [3, 3])
def csc : Build := do
  let d ← ints [1, 4, 5, 2, 3, 6]
  let i ← ints [0, 2, 2, 0, 1, 2]
  let p ← ints [0, 2, 3, 6]
  new .csc (.sparse d i p [3, 3])
def bsr : Build := do
  let d ← new .ndarray (.arr .int64 [6, 2, 2] ([1, 1, 1, 1, 2, 2, 2, 2, 3, 3, 3, 3, 4, 4, 4, 4, 5, 5, 5, 5, 6, 6, 6, 6].map .i))
  let i ← ints [0, 2, 2, 0, 1, 2]
  let p ← ints [0, 2, 3, 6]
  new .bsr (.sparse d i p [6, 6])
example : isGroupAt csr ["data"] = some true ∧ typeAt csr ["data"] = some (.csr, "csr_matrix", true) ∧
    (at' csr ["data"]).map (fun n => match n.body with | .group ls => ls.map Prod.fst | _ => []) = some [ps "data", ps "indices", ps "indptr", ps "shape"] ∧ same csr = true := by
  decide +kernel
example : typeAt csc ["data"] = some (.csc, "csc_matrix", true) ∧ same csc = true ∧ typeAt bsr ["data"] = some (.bsr, "bsr_matrix", true) ∧ same bsr = true := by decide +kernel

/-! ### test_99_hickle_core.py -/

-- test_recursive_load
example : equal (int 42) = true ∧ same (dict [(str "question", none), (str "answer", int 42)]) = true := by decide +kernel

end Verif.Tests
