/-!
# Python exceptions and stateful computations

Exceptions are values.  A computation keeps the state it had reached when the
exception was raised, so that half-written files are visible to theorems.
-/
namespace Verif

/-- Python exception classes that the modelled code raises or catches.
`unmodelled` marks inputs whose behaviour in h5py/numpy is not modelled; no
theorem claims anything about a run that ends with it. -/
inductive PyErr where
  | typeError | valueError | keyError | indexError | lookupError | runtimeError
  | recursionError | overflowError | referenceError | attributeError
  | unicodeEncodeError | fileError | closedFileError | picklingError
  | notHicklable | assertionError | osError
  | unmodelled
  deriving DecidableEq, Repr, Inhabited

/-- State monad with exceptions in which the state survives the exception. -/
def M (σ : Type) (α : Type) : Type := σ → Except PyErr α × σ

namespace M
variable {σ α β : Type}

@[inline] def pure' (a : α) : M σ α := fun s => (.ok a, s)

@[inline] def bind' (x : M σ α) (f : α → M σ β) : M σ β := fun s =>
  match x s with
  | (.ok a, s') => f a s'
  | (.error e, s') => (.error e, s')

instance : Monad (M σ) where
  pure := pure'
  bind := bind'

/-- raise an exception -/
def throw (e : PyErr) : M σ α := fun s => (.error e, s)
/-- the current state -/
def get : M σ σ := fun s => (.ok s, s)
/-- change the state -/
def modify (f : σ → σ) : M σ Unit := fun s => (.ok (), f s)
/-- lift a pure computation that may raise -/
def ofExcept (x : Except PyErr α) : M σ α := fun s => (x, s)

/-- `try`: the outcome as a value -/
def attempt (x : M σ α) : M σ (Except PyErr α) := fun s => (.ok (x s).1, (x s).2)

@[simp] theorem attempt_apply (x : M σ α) (s : σ) : attempt x s = (.ok (x s).1, (x s).2) := rfl
@[simp] theorem pure_apply (a : α) (s : σ) : (pure a : M σ α) s = (.ok a, s) := rfl
@[simp] theorem throw_apply (e : PyErr) (s : σ) : (throw e : M σ α) s = (.error e, s) := rfl
@[simp] theorem get_apply (s : σ) : (get : M σ σ) s = (.ok s, s) := rfl
@[simp] theorem modify_apply (f : σ → σ) (s : σ) : (modify f) s = (.ok (), f s) := rfl
@[simp] theorem ofExcept_apply (x : Except PyErr α) (s : σ) : (ofExcept x : M σ α) s = (x, s) := rfl

theorem bind_apply (x : M σ α) (f : α → M σ β) (s : σ) :
    (x >>= f) s = match x s with
      | (.ok a, s') => f a s'
      | (.error e, s') => (.error e, s') := rfl

theorem bind_ok_iff {x : M σ α} {f : α → M σ β} {s s' : σ} {b : β} :
    (x >>= f) s = (.ok b, s') ↔ ∃ a s1, x s = (.ok a, s1) ∧ f a s1 = (.ok b, s') := by
  rw [bind_apply]
  constructor
  · intro h
    split at h
    · next a s1 hx => exact ⟨a, s1, hx, h⟩
    · simp at h
  · rintro ⟨a, s1, hx, hf⟩
    rw [hx]; exact hf

theorem bind_of_ok {x : M σ α} {f : α → M σ β} {s s1 : σ} {a : α}
    (h : x s = (.ok a, s1)) : (x >>= f) s = f a s1 := by
  rw [bind_apply, h]

theorem bind_of_error {x : M σ α} {f : α → M σ β} {s s1 : σ} {e : PyErr}
    (h : x s = (.error e, s1)) : (x >>= f) s = (.error e, s1) := by
  rw [bind_apply, h]

/-- Python's `for x in xs: body x` (a generator may raise: its elements are `Except`). -/
def forEach (f : α → M σ Unit) : List α → M σ Unit
  | [] => pure ()
  | x :: xs => do f x; forEach f xs

/-- a loop that threads an accumulator through the body -/
def foldEach (f : β → α → M σ β) : β → List α → M σ β
  | b, [] => pure b
  | b, x :: xs => do let b' ← f b x; foldEach f b' xs

end M
end Verif
