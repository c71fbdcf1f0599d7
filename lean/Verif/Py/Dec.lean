import Verif.Py.Utf8
/-!
# Decimal integers

Models CPython's `str(int)`/`repr(int)` and `int(text)` on canonical decimal
text, used in `hickle/loaders/load_builtins.py:73` (`str(py_obj)`), `:301`
(`"{!r}".format(key)`), `:200`, `:305` (`"data{:d}"`), `:333` (`int(memoryview)`)
and `:40` (`int`).  Simplification: `int(text)` also accepts blanks, underscores
and a plus sign; such text is never written by dump and is refused here.
-/
namespace Verif

/-- decimal digits of a natural number as code points, most significant first -/
def digits (n : Nat) : PyStr :=
  if n < 10 then [48 + n] else digits (n / 10) ++ [48 + n % 10]
termination_by n

def isDigit (c : Nat) : Bool := 48 ≤ c && c < 58

/-- value of a digit string read left to right, starting from `acc` -/
def parseDigits : Nat → PyStr → Option Nat
  | acc, [] => some acc
  | acc, c :: cs => if isDigit c then parseDigits (acc * 10 + (c - 48)) cs else none

/-- `int(text)` for unsigned text -/
def parseNat : PyStr → Option Nat
  | [] => none
  | s => parseDigits 0 s

/-- `str(i)` -/
def showInt : Int → PyStr
  | .ofNat n => digits n
  | .negSucc n => 45 :: digits (n + 1)

/-- `int(text)`.  Simplification: blanks around the number, a `+`, underscores and digits that are not ASCII are
not accepted here. -/
def parseInt : PyStr → Option Int
  | 45 :: s => (parseNat s).map fun n => - (n : Int)
  | s => (parseNat s).map fun n => (n : Int)

theorem digits_ne_nil (n : Nat) : digits n ≠ [] := by
  unfold digits; split <;> simp

theorem digits_isDigit (n : Nat) : ∀ c ∈ digits n, isDigit c = true := by
  induction n using digits.induct with
  | case1 n h => intro c hc; unfold digits at hc; rw [if_pos h] at hc; simp at hc; subst hc; simp [isDigit]; omega
  | case2 n h ih =>
    intro c hc; unfold digits at hc; rw [if_neg h] at hc
    simp only [List.mem_append, List.mem_singleton] at hc
    rcases hc with hc | hc
    · exact ih c hc
    · subst hc; simp [isDigit]; omega

theorem parseDigits_append (acc : Nat) (s t : PyStr) :
    parseDigits acc (s ++ t) = (parseDigits acc s).bind fun a => parseDigits a t := by
  induction s generalizing acc with
  | nil => simp [parseDigits]
  | cons c cs ih =>
    simp only [List.cons_append, parseDigits]
    split
    · exact ih _
    · rfl

theorem parseDigits_digits (n : Nat) : parseDigits 0 (digits n) = some n := by
  induction n using digits.induct with
  | case1 n h =>
    unfold digits; rw [if_pos h]
    simp [parseDigits, isDigit]; omega
  | case2 n h ih =>
    unfold digits; rw [if_neg h, parseDigits_append, ih]
    simp [parseDigits, isDigit]; omega

theorem parseNat_digits (n : Nat) : parseNat (digits n) = some n := by
  have := digits_ne_nil n
  unfold parseNat
  split
  · next h => exact absurd h this
  · exact parseDigits_digits n

theorem digits_inj {m n : Nat} (h : digits m = digits n) : m = n := by
  have := parseNat_digits m
  rw [h, parseNat_digits] at this
  simpa using this.symm

theorem digits_head_ne (n : Nat) {c : Nat} (hc : isDigit c = false) : ∀ t, digits n ≠ c :: t := by
  intro t h
  have := digits_isDigit n c (by rw [h]; simp)
  rw [hc] at this; simp at this

theorem parseInt_showInt (i : Int) : parseInt (showInt i) = some i := by
  cases i with
  | ofNat n =>
    simp only [showInt, parseInt]
    split
    · next s h => exact absurd h (digits_head_ne n (by decide) s)
    · rw [parseNat_digits]; rfl
  | negSucc n =>
    simp only [showInt, parseInt]
    rw [parseNat_digits]; simp; omega

theorem showInt_inj {i j : Int} (h : showInt i = showInt j) : i = j := by
  have := parseInt_showInt i
  rw [h, parseInt_showInt] at this
  simpa using this.symm

theorem showInt_chars (i : Int) : ∀ c ∈ showInt i, isDigit c = true ∨ c = 45 := by
  cases i with
  | ofNat n => intro c hc; exact .inl (digits_isDigit n c hc)
  | negSucc n =>
    intro c hc
    simp only [showInt, List.mem_cons] at hc
    rcases hc with hc | hc
    · exact .inr hc
    · exact .inl (digits_isDigit _ c hc)

theorem showInt_ne_nil (i : Int) : showInt i ≠ [] := by
  cases i <;> simp [showInt, digits_ne_nil]

/-- Python's `int.bit_length()` -/
def bitLength (i : Int) : Nat := if i = 0 then 0 else i.natAbs.log2 + 1

theorem bitLength_le_63 (i : Int) : bitLength i ≤ 63 ↔ i.natAbs < 2 ^ 63 := by
  unfold bitLength
  split
  · next h => subst h; simp
  · next h =>
    have : i.natAbs ≠ 0 := by omega
    rw [← Nat.log2_lt this]; omega

end Verif
