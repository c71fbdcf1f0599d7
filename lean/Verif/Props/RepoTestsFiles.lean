import Verif.Props.RepoTests
/-!
# Tests of hickle: file arguments

Continues `RepoTests.lean` with `test_01_hickle_helpers.py`.  Left out: `test_str_attr_converter` (for h5py 2), `test_H5NodeFilterProxy` and
`test_py_container` (classes the model has no objects for), and the modes of the files that come out, which the tests of `test_99_hickle_core.py` have.
-/
namespace Verif.Tests

deriving instance DecidableEq for Except

-- test_no_compression
example : noCompression [.other "hello", .other "word", .compression, .shuffle, .compressionOpts, .chunks, .fletcher32, .scaleoffset] =
    [.other "hello", .other "word"] := by with_unfolding_all rfl

-- test_not_io_base_like: no commands; a method that is not there; one that raises
example : mustTest [] = false ∧ mustTest [Option.none] = false ∧ mustTest [some true, Option.none] = false ∧ mustTest [some true, some false] = false ∧
    mustTest [some false] = false ∧ mustTest [some true, some true] = true ∧ mustTest [some true] = true := by decide +kernel

/-! test_file_opener -/

/-- `open(name, "w")` -/
def fileW : FObj := { id := 1, readable := some (.ok false), seekable := some (.ok true), read := some false, seek := some true, tell := some true, write := some false }
/-- `open(name, "w+b")` -/
def fileWB : FObj := { id := 2, readable := some (.ok true), seekable := some (.ok true), read := some true, seek := some true, tell := some true, write := some true }
/-- `open(name, "rb")` -/
def fileRB : FObj := { fileWB with id := 3, write := some false }
/-- a string, looked at as an object -/
def notMe : FObj := { id := 4 }

def opens (f : FileArg) (path mode : String) (name : NameArg := .absent) : Except PyErr Opened := fileOpener f (ps path) (ps mode) name

-- file objects for writing
example : opens (.obj fileW) "root" "w" .text = .error .fileError ∧
    opens (.obj fileWB) "root" "w+" = .ok ⟨.h5File (.obj 2) (ps "w"), ps "/root", true⟩ := by decide +kernel
-- for reading; with a name that is no string; in a tuple and in a dict
example : opens (.obj fileRB) "root" "r" = .ok ⟨.h5File (.obj 3) (ps "r"), ps "/root", true⟩ ∧
    opens (.obj fileRB) "root" "r" .other = .error .valueError ∧
    opens (.seq [fileRB, notMe]) "root" "r" = .ok ⟨.h5File (.obj 3) (ps "r"), ps "/root", true⟩ ∧
    opens (.dict (some fileRB) (some notMe)) "root" "r" = .ok ⟨.h5File (.obj 3) (ps "r"), ps "/root", true⟩ := by decide +kernel
-- modes that do not fit
example : opens (.dict (some fileRB) (some notMe)) "root" "r+" = .error .fileError ∧
    opens (.dict (some fileRB) (some notMe)) "root" "w" = .error .fileError ∧
    opens (.dict (some fileRB) (some notMe)) "root" "+" = .error .valueError ∧
    opens (.dict (some fileW) (some notMe)) "root" "w" = .error .fileError ∧
    opens (.obj { fileW with closed := true }) "root" "r" = .error .closedFileError := by decide +kernel
-- open files and groups: read only, writable, closed, a group
example : opens (root true) "" "w" = .error .fileError ∧
    opens (root false) "" "w" = .ok ⟨.given 0, ps "/", false⟩ ∧
    opens (.group ⟨false, ps "/", 0, false⟩) "" "w" = .error .closedFileError ∧
    opens (.group ⟨true, ps "/some_group", 0, true⟩) "" "r" = .ok ⟨.given 0, ps "/some_group", false⟩ := by decide +kernel
-- a file name; any other object
example : opens file "root_group" "w" = .ok ⟨.h5File (.name (ps "f.hkl")) (ps "w"), ps "/root_group", true⟩ ∧
    opens (.obj { id := 5 }) "root_group" "w" = .error .fileError := by decide +kernel

end Verif.Tests
