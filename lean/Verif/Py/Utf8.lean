/-!
# Python strings, byte strings and UTF-8

A Python `str` is a list of code points; lone surrogates are legal in a `str`
but have no UTF-8 encoding.  Models CPython's `str.encode('utf8')` and
`bytes.decode('utf8')` in strict mode, used in
`hickle/loaders/load_builtins.py:172` (`bytearray(py_obj,"utf8")`),
`:392` (`bytes(content).decode("utf8")`), `:294` (`key.decode("utf8")`) and
`:496` (`name[2:-1].encode("utf8")`).
-/
namespace Verif

/-- a Python `str`: list of code points -/
abbrev PyStr := List Nat
/-- a Python `bytes` -/
abbrev Bytes := List UInt8

/-- code points that have a UTF-8 encoding -/
def encodable (c : Nat) : Bool := c < 0x110000 && !(0xD800 ≤ c && c < 0xE000)

/-- UTF-8 encoding of one code point (RFC 3629) -/
def encodeCp (c : Nat) : Option Bytes :=
  if encodable c then
    if c < 0x80 then some [UInt8.ofNat c]
    else if c < 0x800 then some [UInt8.ofNat (0xC0 + c / 64), UInt8.ofNat (0x80 + c % 64)]
    else if c < 0x10000 then
      some [UInt8.ofNat (0xE0 + c / 4096), UInt8.ofNat (0x80 + c / 64 % 64), UInt8.ofNat (0x80 + c % 64)]
    else
      some [UInt8.ofNat (0xF0 + c / 262144), UInt8.ofNat (0x80 + c / 4096 % 64),
            UInt8.ofNat (0x80 + c / 64 % 64), UInt8.ofNat (0x80 + c % 64)]
  else none

/-- `s.encode('utf8')`; `none` is `UnicodeEncodeError` -/
def utf8Encode : PyStr → Option Bytes
  | [] => some []
  | c :: cs =>
    match encodeCp c, utf8Encode cs with
    | some b, some bs => some (b ++ bs)
    | _, _ => none

/-- continuation byte -/
def isCont (b : UInt8) : Bool := 0x80 ≤ b.toNat && b.toNat < 0xC0

/-- decode one code point; gives the code point and the remaining bytes -/
def decodeCp : Bytes → Option (Nat × Bytes)
  | [] => none
  | b0 :: r0 =>
    if b0.toNat < 0x80 then some (b0.toNat, r0)
    else if b0.toNat < 0xC0 then none
    else if b0.toNat < 0xE0 then
      match r0 with
      | b1 :: r1 =>
        let c := (b0.toNat - 0xC0) * 64 + (b1.toNat - 0x80)
        if isCont b1 && 0x80 ≤ c then some (c, r1) else none
      | _ => none
    else if b0.toNat < 0xF0 then
      match r0 with
      | b1 :: b2 :: r2 =>
        let c := (b0.toNat - 0xE0) * 4096 + (b1.toNat - 0x80) * 64 + (b2.toNat - 0x80)
        if isCont b1 && isCont b2 && 0x800 ≤ c && !(0xD800 ≤ c && c < 0xE000) then some (c, r2)
        else none
      | _ => none
    else if b0.toNat < 0xF8 then
      match r0 with
      | b1 :: b2 :: b3 :: r3 =>
        let c := (b0.toNat - 0xF0) * 262144 + (b1.toNat - 0x80) * 4096 + (b2.toNat - 0x80) * 64
                  + (b3.toNat - 0x80)
        if isCont b1 && isCont b2 && isCont b3 && 0x10000 ≤ c && c < 0x110000 then some (c, r3)
        else none
      | _ => none
    else none

theorem decodeCp_length {bs : Bytes} {c : Nat} {r : Bytes} (h : decodeCp bs = some (c, r)) :
    r.length < bs.length := by
  unfold decodeCp at h
  split at h
  · simp at h
  · repeat' split at h
    all_goals (first | (simp at h; done) | (simp at h; obtain ⟨_, rfl⟩ := h; simp; done) |
      (simp at h; obtain ⟨_, _, rfl⟩ := h; simp; omega))

/-- `b.decode('utf8')`; `none` is `UnicodeDecodeError` -/
def utf8Decode (bs : Bytes) : Option PyStr :=
  match bs with
  | [] => some []
  | b :: bs' =>
    match h : decodeCp (b :: bs') with
    | none => none
    | some (c, r) =>
      have : r.length < (b :: bs').length := decodeCp_length h
      (utf8Decode r).map (c :: ·)
termination_by bs.length

theorem encodeCp_ne_nil {c : Nat} {b : Bytes} (h : encodeCp c = some b) : b ≠ [] := by
  unfold encodeCp at h
  repeat' split at h
  all_goals (simp at h; try (subst h; simp))

theorem toNat_ofNat_lt {n : Nat} (h : n < 256) : (UInt8.ofNat n).toNat = n := by
  simp; omega

theorem ofNat_eq {n : Nat} {b : UInt8} (h : n = b.toNat) : UInt8.ofNat n = b := by
  subst h; simp

theorem decodeCp_encodeCp {c : Nat} {b : Bytes} (h : encodeCp c = some b) (rest : Bytes) :
    decodeCp (b ++ rest) = some (c, rest) := by
  unfold encodeCp at h
  split at h
  next he =>
    simp only [encodable, Bool.and_eq_true, decide_eq_true_eq, Bool.not_eq_true',
      Bool.and_eq_false_iff, decide_eq_false_iff_not] at he
    repeat' split at h
    all_goals
      simp only [Option.some.injEq] at h
      subst h
      simp only [List.cons_append, List.nil_append, decodeCp]
    · rw [toNat_ofNat_lt (by omega)]
      rw [if_pos (by omega)]
    · rw [toNat_ofNat_lt (by omega : 0xC0 + c / 64 < 256)]
      rw [if_neg (by omega), if_neg (by omega), if_pos (by omega)]
      rw [isCont, toNat_ofNat_lt (by omega : 0x80 + c % 64 < 256)]
      rw [if_pos (by simp; omega)]
      simp only [Option.some.injEq, Prod.mk.injEq, and_true]; omega
    · rw [toNat_ofNat_lt (by omega : 0xE0 + c / 4096 < 256)]
      rw [if_neg (by omega), if_neg (by omega), if_neg (by omega), if_pos (by omega)]
      rw [isCont, isCont, toNat_ofNat_lt (by omega : 0x80 + c % 64 < 256),
        toNat_ofNat_lt (by omega : 0x80 + c / 64 % 64 < 256)]
      rw [if_pos (by simp; omega)]
      simp only [Option.some.injEq, Prod.mk.injEq, and_true]; omega
    · rw [toNat_ofNat_lt (by omega : 0xF0 + c / 262144 < 256)]
      rw [if_neg (by omega), if_neg (by omega), if_neg (by omega), if_neg (by omega), if_pos (by omega)]
      rw [isCont, isCont, isCont, toNat_ofNat_lt (by omega : 0x80 + c % 64 < 256),
        toNat_ofNat_lt (by omega : 0x80 + c / 64 % 64 < 256),
        toNat_ofNat_lt (by omega : 0x80 + c / 4096 % 64 < 256)]
      rw [if_pos (by simp; omega)]
      simp only [Option.some.injEq, Prod.mk.injEq, and_true]; omega
  next => simp at h

theorem utf8Decode_cons_of {bs r : Bytes} {c : Nat} (h : decodeCp bs = some (c, r)) :
    utf8Decode bs = (utf8Decode r).map (c :: ·) := by
  cases bs with
  | nil => simp [decodeCp] at h
  | cons b bs =>
    rw [utf8Decode]
    split
    · next h' => rw [h] at h'; simp at h'
    · next c' r' h' => rw [h] at h'; simp only [Option.some.injEq, Prod.mk.injEq] at h'; obtain ⟨rfl, rfl⟩ := h'; rfl

/-- decoding inverts encoding -/
theorem utf8Decode_encode {s : PyStr} {b : Bytes} (h : utf8Encode s = some b) :
    utf8Decode b = some s := by
  induction s generalizing b with
  | nil => simp [utf8Encode] at h; subst h; simp [utf8Decode]
  | cons c cs ih =>
    simp only [utf8Encode] at h
    split at h
    · next b1 bs h1 h2 =>
      simp only [Option.some.injEq] at h; subst h
      rw [utf8Decode_cons_of (decodeCp_encodeCp h1 bs), ih h2]; rfl
    · simp at h

theorem encodeCp_decodeCp {bs : Bytes} {c : Nat} {r : Bytes} (h : decodeCp bs = some (c, r)) :
    ∃ b, encodeCp c = some b ∧ bs = b ++ r := by
  unfold decodeCp at h
  split at h
  · simp at h
  · next b0 r0 =>
    have hb0 := b0.toNat_lt
    split at h
    · simp only [Option.some.injEq, Prod.mk.injEq] at h
      obtain ⟨rfl, rfl⟩ := h
      refine ⟨[b0], ?_, rfl⟩
      unfold encodeCp encodable
      rw [if_pos (by simp; omega), if_pos (by omega)]
      simp
    split at h
    · simp at h
    split at h
    · split at h
      · next b1 r1 =>
        have hb1 := b1.toNat_lt
        simp only [] at h
        split at h
        · next hc =>
          simp only [Option.some.injEq, Prod.mk.injEq] at h
          obtain ⟨rfl, rfl⟩ := h
          simp [isCont] at hc
          refine ⟨[b0, b1], ?_, rfl⟩
          unfold encodeCp encodable
          rw [if_pos (by simp; omega), if_neg (by omega), if_pos (by omega)]
          simp only [Option.some.injEq, List.cons.injEq, and_true]
          refine ⟨ofNat_eq (by omega), ofNat_eq (by omega)⟩
        · simp at h
      · simp at h
    split at h
    · split at h
      · next b1 b2 r1 =>
        have hb1 := b1.toNat_lt
        have hb2 := b2.toNat_lt
        simp only [] at h
        split at h
        · next hc =>
          simp only [Option.some.injEq, Prod.mk.injEq] at h
          obtain ⟨rfl, rfl⟩ := h
          simp [isCont] at hc
          refine ⟨[b0, b1, b2], ?_, rfl⟩
          unfold encodeCp encodable
          rw [if_pos (by simp; omega), if_neg (by omega), if_neg (by omega), if_pos (by omega)]
          simp only [Option.some.injEq, List.cons.injEq, and_true]
          refine ⟨ofNat_eq (by omega), ofNat_eq (by omega), ofNat_eq (by omega)⟩
        · simp at h
      · simp at h
    split at h
    · split at h
      · next b1 b2 b3 r1 =>
        have hb1 := b1.toNat_lt
        have hb2 := b2.toNat_lt
        have hb3 := b3.toNat_lt
        simp only [] at h
        split at h
        · next hc =>
          simp only [Option.some.injEq, Prod.mk.injEq] at h
          obtain ⟨rfl, rfl⟩ := h
          simp [isCont] at hc
          refine ⟨[b0, b1, b2, b3], ?_, rfl⟩
          unfold encodeCp encodable
          rw [if_pos (by simp; omega), if_neg (by omega), if_neg (by omega), if_neg (by omega)]
          simp only [Option.some.injEq, List.cons.injEq, and_true]
          refine ⟨ofNat_eq (by omega), ofNat_eq (by omega), ofNat_eq (by omega), ofNat_eq (by omega)⟩
        · simp at h
      · simp at h
    · simp at h

/-- encoding inverts decoding -/
theorem utf8Encode_decode {bs : Bytes} {s : PyStr} (h : utf8Decode bs = some s) :
    utf8Encode s = some bs := by
  induction s generalizing bs with
  | nil =>
    cases bs with
    | nil => rfl
    | cons b bs =>
      rw [utf8Decode] at h
      split at h
      · simp at h
      · simp [Option.map_eq_some_iff] at h
  | cons c cs ih =>
    cases bs with
    | nil => simp [utf8Decode] at h
    | cons b bs =>
      rw [utf8Decode] at h
      split at h
      · simp at h
      · next c' r hd =>
        simp only [Option.map_eq_some_iff, List.cons.injEq] at h
        obtain ⟨a, hr, rfl, rfl⟩ := h
        obtain ⟨b1, he, hb⟩ := encodeCp_decodeCp hd
        simp [utf8Encode, he, ih hr, hb]

/-- exactly the strings without lone surrogates (and within Unicode) can be encoded -/
theorem utf8Encode_isSome_iff (s : PyStr) :
    (utf8Encode s).isSome ↔ ∀ c ∈ s, c < 0x110000 ∧ ¬ (0xD800 ≤ c ∧ c < 0xE000) := by
  induction s with
  | nil => simp [utf8Encode]
  | cons c cs ih =>
    have hc : (encodeCp c).isSome ↔ c < 0x110000 ∧ ¬ (0xD800 ≤ c ∧ c < 0xE000) := by
      unfold encodeCp
      split
      · next h =>
        simp [encodable] at h
        repeat' split
        all_goals (simp; omega)
      · next h => simp [encodable] at h ⊢; omega
    simp only [utf8Encode, List.mem_cons, forall_eq_or_imp, ← hc, ← ih]
    cases encodeCp c <;> cases utf8Encode cs <;> simp

end Verif
