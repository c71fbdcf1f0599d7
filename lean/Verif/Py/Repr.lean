import Verif.Py.Dec
/-!
# Texts of strings: `repr` and string literals

`repr(str)` and `repr(bytes)` (Python language reference; `Objects/unicodeobject.c` `unicode_repr`, `Objects/bytesobject.c`
`PyBytes_Repr`) and the reading of a string literal by `ast.literal_eval`.
Simplification: of the escape sequences of a literal only those are read that `repr` writes; with any other, reading fails.
-/
namespace Verif

/-- a hexadecimal digit -/
def hexDigit (n : Nat) : Nat := if n < 10 then 48 + n else 87 + n

/-- the last `w` hexadecimal digits of a number -/
def hexN : Nat → Nat → PyStr
  | 0, _ => []
  | w + 1, n => hexN w (n / 16) ++ [hexDigit (n % 16)]

/-- value of a hexadecimal digit -/
def unhex (c : Nat) : Option Nat :=
  if 48 ≤ c && c < 58 then some (c - 48) else if 97 ≤ c && c < 103 then some (c - 87) else if 65 ≤ c && c < 71 then some (c - 55) else none

/-- how `repr` writes a character between quotes `q`; `printable`: `str.isprintable` beyond ASCII -/
def escChar (printable : Nat → Bool) (q c : Nat) : PyStr :=
  if c = q ∨ c = 92 then [92, c]
  else if c = 9 then [92, 116]
  else if c = 10 then [92, 110]
  else if c = 13 then [92, 114]
  else if c < 32 ∨ c = 127 then 92 :: 120 :: hexN 2 c
  else if c < 127 then [c]
  else if printable c then [c]
  else if c < 256 then 92 :: 120 :: hexN 2 c
  else if c < 65536 then 92 :: 117 :: hexN 4 c
  else 92 :: 85 :: hexN 8 c

/-- the quotes `repr` uses: double ones if there is an apostrophe and no double quote -/
def quoteFor (s : PyStr) : Nat := if 39 ∈ s ∧ 34 ∉ s then 34 else 39

/-- `repr(s)` -/
def reprStr (printable : Nat → Bool) (s : PyStr) : PyStr := quoteFor s :: s.flatMap (escChar printable (quoteFor s)) ++ [quoteFor s]

/-- `repr(b)` -/
def reprBytes (b : Bytes) : PyStr := 98 :: reprStr (fun _ => false) (b.map UInt8.toNat)

/-- within a string literal: an ordinary place, behind a backslash, or `k + 1` hexadecimal digits to come -/
inductive LitSt where
  | plain
  | esc
  | hex (k acc : Nat)

/-- a string literal behind its opening quote `q`: the characters and what follows the closing quote -/
def litBody (q : Nat) : LitSt → PyStr → Option (PyStr × PyStr)
  | _, [] => none
  | .plain, c :: cs =>
    if c = q then some ([], cs)
    else if c = 92 then litBody q .esc cs
    else if c = 10 then none
    else (litBody q .plain cs).map fun r => (c :: r.1, r.2)
  | .esc, c :: cs =>
    if c = 92 ∨ c = 39 ∨ c = 34 then (litBody q .plain cs).map fun r => (c :: r.1, r.2)
    else if c = 116 then (litBody q .plain cs).map fun r => (9 :: r.1, r.2)
    else if c = 110 then (litBody q .plain cs).map fun r => (10 :: r.1, r.2)
    else if c = 114 then (litBody q .plain cs).map fun r => (13 :: r.1, r.2)
    else if c = 120 then litBody q (.hex 1 0) cs
    else if c = 117 then litBody q (.hex 3 0) cs
    else if c = 85 then litBody q (.hex 7 0) cs
    else none
  | .hex k acc, c :: cs =>
    match unhex c with
    | none => none
    | some d =>
      match k with
      | 0 => if 16 * acc + d < 0x110000 then (litBody q .plain cs).map fun r => ((16 * acc + d) :: r.1, r.2) else none
      | k + 1 => litBody q (.hex k (16 * acc + d)) cs

/-- a string literal at the beginning of a text, and what follows it -/
def litStr : PyStr → Option (PyStr × PyStr)
  | c :: cs => if c = 39 ∨ c = 34 then litBody c .plain cs else none
  | [] => none

theorem unhex_hexDigit {n : Nat} (h : n < 16) : unhex (hexDigit n) = some n := by
  unfold unhex hexDigit
  by_cases h1 : n < 10
  · rw [if_pos h1, if_pos (by simp; omega)]; congr 1; omega
  · rw [if_neg h1, if_neg (by simp; omega), if_pos (by simp; omega)]; congr 1; omega

theorem hexN_length (w n : Nat) : (hexN w n).length = w := by
  induction w generalizing n with
  | zero => rfl
  | succ w ih => simp [hexN, ih]

/-- the hexadecimal digits of a number, most significant first -/
theorem hexN_cons (w n : Nat) : hexN (w + 1) n = hexDigit (n / 16 ^ w % 16) :: hexN w n := by
  induction w generalizing n with
  | zero => simp [hexN]
  | succ w ih =>
    rw [hexN, ih]
    show _ = hexDigit (n / 16 ^ (w + 1) % 16) :: (hexN w (n / 16) ++ [hexDigit (n % 16)])
    rw [Nat.div_div_eq_div_mul, Nat.pow_succ, Nat.mul_comm 16]
    rfl

theorem litBody_hex (q k acc n : Nat) (t : PyStr) (hv : acc * 16 ^ (k + 1) + n % 16 ^ (k + 1) < 0x110000) :
    litBody q (.hex k acc) (hexN (k + 1) n ++ t) = (litBody q .plain t).map fun r => ((acc * 16 ^ (k + 1) + n % 16 ^ (k + 1)) :: r.1, r.2) := by
  induction k generalizing acc with
  | zero =>
    simp only [hexN, List.nil_append, List.cons_append, litBody]
    rw [unhex_hexDigit (Nat.mod_lt _ (by decide))]
    simp only []
    simp only [Nat.zero_add, Nat.pow_one] at hv ⊢
    rw [Nat.mul_comm 16 acc, if_pos hv]
  | succ k ih =>
    rw [hexN_cons, List.cons_append]
    simp only [litBody]
    rw [unhex_hexDigit (Nat.mod_lt _ (by decide))]
    simp only []
    have he : (16 * acc + n / 16 ^ (k + 1) % 16) * 16 ^ (k + 1) + n % 16 ^ (k + 1) = acc * 16 ^ (k + 1 + 1) + n % 16 ^ (k + 1 + 1) := by
      rw [Nat.add_mul, Nat.pow_succ 16 (k + 1), Nat.mod_mul, Nat.mul_comm (16 ^ (k+1)) (n / 16 ^ (k+1) % 16)]
      rw [Nat.mul_comm 16 acc, Nat.mul_assoc, Nat.mul_comm 16 (16 ^ (k+1))]
      omega
    rw [ih _ (by rw [he]; exact hv), he]

/-- reading an escaped character gives the character -/
theorem litBody_esc (printable : Nat → Bool) {q c : Nat} (hq : q = 39 ∨ q = 34) (hc : c < 0x110000) (t : PyStr) :
    litBody q .plain (escChar printable q c ++ t) = (litBody q .plain t).map fun r => (c :: r.1, r.2) := by
  have hq92 : ¬ (92 : Nat) = q := by omega
  unfold escChar
  split
  · next h =>
    simp only [List.cons_append, List.nil_append, litBody, if_neg hq92, if_true]
    rw [if_pos (by omega)]
  · next h =>
    have hcq : ¬ c = q := by omega
    have hc92 : ¬ c = 92 := by omega
    have plainCase : c ≠ 10 → litBody q .plain ([c] ++ t) = (litBody q .plain t).map fun r => (c :: r.1, r.2) := by
      intro h10
      simp only [List.cons_append, List.nil_append, litBody, if_neg hcq, if_neg hc92, if_neg h10]
    have hex2 : c < 256 → litBody q .plain (92 :: 120 :: hexN 2 c ++ t) = (litBody q .plain t).map fun r => (c :: r.1, r.2) := by
      intro h2
      simp only [List.cons_append, litBody, if_neg hq92, if_true]
      simp only [show ¬ ((120 : Nat) = 92 ∨ (120 : Nat) = 39 ∨ (120 : Nat) = 34) by decide, if_false, show ¬ (120 : Nat) = 116 by decide,
        show ¬ (120 : Nat) = 110 by decide, show ¬ (120 : Nat) = 114 by decide]
      have he : 0 * 16 ^ (1 + 1) + c % 16 ^ (1 + 1) = c := by omega
      rw [litBody_hex q 1 0 c t (by rw [he]; exact hc), he]
    split
    · next h => subst h; simp [litBody, hq92]
    split
    · next h => subst h; simp [litBody, hq92]
    split
    · next h => subst h; simp [litBody, hq92]
    split
    · next h => exact hex2 (by omega)
    split
    · exact plainCase (by omega)
    split
    · exact plainCase (by omega)
    split
    · next h => exact hex2 h
    split
    · next h =>
      simp only [List.cons_append, litBody, if_neg hq92, if_true]
      simp only [show ¬ ((117 : Nat) = 92 ∨ (117 : Nat) = 39 ∨ (117 : Nat) = 34) by decide, if_false, show ¬ (117 : Nat) = 116 by decide,
        show ¬ (117 : Nat) = 110 by decide, show ¬ (117 : Nat) = 114 by decide, show ¬ (117 : Nat) = 120 by decide]
      have he : 0 * 16 ^ (3 + 1) + c % 16 ^ (3 + 1) = c := by omega
      rw [litBody_hex q 3 0 c t (by rw [he]; exact hc), he]
    · next h =>
      simp only [List.cons_append, litBody, if_neg hq92, if_true]
      simp only [show ¬ ((85 : Nat) = 92 ∨ (85 : Nat) = 39 ∨ (85 : Nat) = 34) by decide, if_false, show ¬ (85 : Nat) = 116 by decide,
        show ¬ (85 : Nat) = 110 by decide, show ¬ (85 : Nat) = 114 by decide, show ¬ (85 : Nat) = 120 by decide, show ¬ (85 : Nat) = 117 by decide]
      have he : 0 * 16 ^ (7 + 1) + c % 16 ^ (7 + 1) = c := by omega
      rw [litBody_hex q 7 0 c t (by rw [he]; exact hc), he]

theorem litBody_escs (printable : Nat → Bool) {q : Nat} (hq : q = 39 ∨ q = 34) (t : PyStr) :
    ∀ s : PyStr, (∀ c ∈ s, c < 0x110000) → litBody q .plain (s.flatMap (escChar printable q) ++ q :: t) = some (s, t)
  | [], _ => by simp [litBody]
  | c :: s, h => by
    rw [List.flatMap_cons, List.append_assoc, litBody_esc printable hq (h c (by simp)), litBody_escs printable hq t s fun x hx => h x (by simp [hx])]
    rfl

theorem quoteFor_eq (s : PyStr) : quoteFor s = 39 ∨ quoteFor s = 34 := by unfold quoteFor; split <;> simp

/-- **`literal_eval(repr(s))` is `s`**, for every string -/
theorem litStr_repr (printable : Nat → Bool) {s : PyStr} (h : ∀ c ∈ s, c < 0x110000) (t : PyStr) : litStr (reprStr printable s ++ t) = some (s, t) := by
  unfold litStr reprStr
  simp only [List.cons_append, List.append_assoc, List.nil_append]
  rw [if_pos (quoteFor_eq s)]
  exact litBody_escs printable (quoteFor_eq s) t s h

/-- characters of a text that `repr` writes -/
theorem hexN_chars (w n : Nat) : ∀ c ∈ hexN w n, 48 ≤ c ∧ c < 103 := by
  induction w generalizing n with
  | zero => simp [hexN]
  | succ w ih =>
    intro c hc
    simp only [hexN, List.mem_append, List.mem_singleton] at hc
    rcases hc with hc | rfl
    · exact ih _ c hc
    · have := Nat.mod_lt n (show 0 < 16 by decide)
      unfold hexDigit; split <;> omega

/-- what characters can be in the text of a character: a slash only stands for a slash, and what is not ASCII for a character that
can be printed -/
theorem escChar_chars (printable : Nat → Bool) {q c : Nat} (hq : q = 39 ∨ q = 34) :
    ∀ x ∈ escChar printable q c, (32 ≤ x ∧ x < 127 ∧ (x = 47 → c = 47)) ∨ (x = c ∧ 127 < c ∧ printable c = true) := by
  have hx : ∀ w n x, x ∈ hexN w n → 32 ≤ x ∧ x < 127 ∧ (x = 47 → c = 47) := fun w n x h => by
    have := hexN_chars w n x h; omega
  intro x
  unfold escChar
  split
  · next h => intro hm; simp at hm; left; omega
  split
  · intro hm; simp at hm; left; omega
  split
  · intro hm; simp at hm; left; omega
  split
  · intro hm; simp at hm; left; omega
  split
  · intro hm; simp only [List.mem_cons] at hm
    rcases hm with rfl | rfl | hm
    · left; omega
    · left; omega
    · exact .inl (hx _ _ _ hm)
  split
  · intro hm; simp at hm; left; omega
  split
  · next hp => intro hm; simp at hm; right; exact ⟨hm, by omega, hp⟩
  split
  · intro hm; simp only [List.mem_cons] at hm
    rcases hm with rfl | rfl | hm
    · left; omega
    · left; omega
    · exact .inl (hx _ _ _ hm)
  split
  · intro hm; simp only [List.mem_cons] at hm
    rcases hm with rfl | rfl | hm
    · left; omega
    · left; omega
    · exact .inl (hx _ _ _ hm)
  · intro hm; simp only [List.mem_cons] at hm
    rcases hm with rfl | rfl | hm
    · left; omega
    · left; omega
    · exact .inl (hx _ _ _ hm)

theorem reprStr_chars (printable : Nat → Bool) (s : PyStr) :
    ∀ x ∈ reprStr printable s, (32 ≤ x ∧ x < 127 ∧ (x = 47 → 47 ∈ s)) ∨ (x ∈ s ∧ 127 < x ∧ printable x = true) := by
  intro x hx
  simp only [reprStr, List.cons_append, List.mem_cons, List.mem_append, List.mem_flatMap, List.not_mem_nil, or_false] at hx
  have hq := quoteFor_eq s
  rcases hx with rfl | ⟨c, hc, hx⟩ | rfl
  · left; omega
  · rcases escChar_chars printable hq x hx with ⟨h1, h2, h3⟩ | ⟨h1, h2, h3⟩
    · exact .inl ⟨h1, h2, fun h => h3 h ▸ hc⟩
    · exact .inr ⟨h1 ▸ hc, h1 ▸ h2, h1 ▸ h3⟩
  · left; omega

end Verif
