import Verif.Props.C07
import Verif.Props.C32
/-!
# Version 3: texts of keys are read back

Version 3 names the group of an entry of a dictionary by `repr(key)` and finds the key again with `ast.literal_eval`, `int`, `float`, ... .
`Key` are the keys for which that works.
-/
namespace Verif.V3

/-- a string whose `repr` is ASCII and does not contain a slash -/
structure PlainStr (l : Libs) (s : PyStr) : Prop where
  chars : ∀ c ∈ s, c < 0x110000
  noSlash : 47 ∉ s
  ascii : ∀ c ∈ s, 127 < c → l.printable c = false

/-- values of which `repr` is a literal -/
inductive Literal (l : Libs) : PV → Prop
  | none : Literal l .none
  | bool (b : Bool) : Literal l (.bool b)
  | int (i : Int) : Literal l (.int i)
  /-- not `inf` and not `nan` -/
  | float (x : F64) : 110 ∉ l.env.reprF x → Literal l (.float x)
  | str (s : PyStr) : PlainStr l s → Literal l (.str s)
  | bytes (b : Bytes) : 47 ∉ b → Literal l (.bytes b)
  | tuple (items : List PV) : (∀ x ∈ items, Literal l x) → Literal l (.seq .tuple items)

/-- keys of dictionaries that come back -/
inductive Key (l : Libs) : PV → Prop
  | str (s : PyStr) : PlainStr l s → Key l (.str s)
  | int (i : Int) : Key l (.int i)
  | float (x : F64) : Key l (.float x)
  | cplx (x y : F64) : Key l (.cplx x y)
  /-- `False` comes back as `True` -/
  | true : Key l (.bool true)
  | tuple (items : List PV) : (∀ x ∈ items, Literal l x) → Key l (.seq .tuple items)

theorem parseDigits_digits {acc n : Nat} {s : PyStr} (h : parseDigits acc s = some n) : ∀ c ∈ s, isDigit c = true := by
  induction s generalizing acc with
  | nil => simp
  | cons c s ih =>
    unfold parseDigits at h
    split at h
    · next hc => intro x hx; cases hx with
      | head => exact hc
      | tail _ hx => exact ih h x hx
    · simp at h

theorem parseInt_chars {s : PyStr} {i : Int} (h : parseInt s = some i) : ∀ c ∈ s, isDigit c = true ∨ c = 45 := by
  have key : ∀ {t : PyStr} {n : Nat}, parseNat t = some n → ∀ c ∈ t, isDigit c = true := by
    intro t n ht
    cases t with
    | nil => simp
    | cons c t => exact parseDigits_digits ht
  unfold parseInt at h
  split at h
  · next s =>
    cases hp : parseNat s with
    | none => simp [hp] at h
    | some n =>
      intro c hc
      cases hc with
      | head => exact .inr rfl
      | tail _ hc => exact .inl (key hp c hc)
  · cases hp : parseNat s with
    | none => simp [hp] at h
    | some n => exact fun c hc => .inl (key hp c hc)

/-- what stands behind a literal inside of a tuple -/
def Ends (rest : PyStr) : Prop := ∀ c, rest.head? = some c → tokenEnd c = true

theorem takeToken {t rest : PyStr} (ht : ∀ c ∈ t, tokenEnd c = false) (hr : Ends rest) :
    ((t ++ rest).takeWhile fun x => !tokenEnd x) = t ∧ ((t ++ rest).dropWhile fun x => !tokenEnd x) = rest := by
  rw [List.takeWhile_append_of_pos (by simpa using ht), List.dropWhile_append_of_pos (by simpa using ht)]
  cases rest with
  | nil => simp
  | cons c r => simp [hr c rfl]

/-- a token that is not a string, nor a tuple -/
theorem lit_token {l : Libs} {t rest : PyStr} {v : PV} {f : Nat} (ht : ∀ c ∈ t, tokenEnd c = false) (hh : ∀ c, t.head? = some c → c ≠ 40 ∧ c ≠ 39 ∧ c ≠ 34 ∧ c ≠ 98)
    (hne : t ≠ []) (hr : Ends rest) (hv : litToken l t = some v) : lit l (f + 1) (t ++ rest) = some (v, rest) := by
  obtain ⟨h1, h2⟩ := takeToken ht hr
  cases t with
  | nil => exact absurd rfl hne
  | cons c t =>
    obtain ⟨a, b, d, e⟩ := hh c rfl
    rw [List.cons_append, lit, if_neg a, if_neg (by simp [b, d]), if_neg e]
    rw [← List.cons_append, h1, h2, hv]; rfl

theorem reprF_ne_nil {env : Env} (ht : TextOk env) (x : F64) : env.reprF x ≠ [] := by
  obtain ⟨c, hc, _⟩ := ht.pointF x
  intro h; rw [h] at hc; simp at hc

theorem charsF_num {c : Nat} (h : c ∈ ps "0123456789+-.einfa") : c < 128 ∧ c ≠ 47 ∧ tokenEnd c = false ∧ c ≠ 40 ∧ c ≠ 39 ∧ c ≠ 34 ∧ c ≠ 98 ∧ c ≠ 78 ∧ c ≠ 84 ∧ c ≠ 70 := by
  have : ∀ c ∈ ps "0123456789+-.einfa", c < 128 ∧ c ≠ 47 ∧ tokenEnd c = false ∧ c ≠ 40 ∧ c ≠ 39 ∧ c ≠ 34 ∧ c ≠ 98 ∧ c ≠ 78 ∧ c ≠ 84 ∧ c ≠ 70 := by decide
  exact this c h

theorem showInt_num {i : Int} {c : Nat} (h : c ∈ showInt i) : c < 128 ∧ c ≠ 47 ∧ tokenEnd c = false ∧ c ≠ 40 ∧ c ≠ 39 ∧ c ≠ 34 ∧ c ≠ 98 ∧ c ≠ 78 ∧ c ≠ 84 ∧ c ≠ 70 := by
  have h : isDigit c = true ∨ c = 45 := showInt_chars i c h
  simp only [isDigit, Bool.and_eq_true, decide_eq_true_eq] at h
  simp only [tokenEnd, Bool.or_eq_false_iff, decide_eq_false_iff_not]
  omega

theorem not_name {t : PyStr} (h : ∀ c ∈ t, c ≠ 78 ∧ c ≠ 84 ∧ c ≠ 70) : t ≠ ps "None" ∧ t ≠ ps "True" ∧ t ≠ ps "False" := by
  refine ⟨?_, ?_, ?_⟩ <;> rintro rfl
  · exact absurd rfl (h 78 (by decide)).1
  · exact absurd rfl (h 84 (by decide)).2.1
  · exact absurd rfl (h 70 (by decide)).2.2

theorem litToken_int {l : Libs} {i : Int} (hd : digitsOk l.env i = true) : litToken l (showInt i) = some (.int i) := by
  obtain ⟨a, b, c⟩ := not_name (t := showInt i) fun c hc => ((showInt_num hc).2.2.2.2.2.2.2)
  rw [litToken, if_neg a, if_neg b, if_neg c, parseInt_showInt]
  simp [hd]

theorem parseInt_reprF {env : Env} (ht : TextOk env) (x : F64) : parseInt (env.reprF x) = none := by
  obtain ⟨c, hc, hp⟩ := ht.pointF x
  cases h : parseInt (env.reprF x) with
  | none => rfl
  | some i =>
    have h1 := parseInt_chars h c hc
    have : ∀ c ∈ ps ".en", ¬ (isDigit c = true ∨ c = 45) := by decide
    exact absurd h1 (this c hp)

theorem litToken_float {l : Libs} (ht : TextOk l.env) {x : F64} (hn : 110 ∉ l.env.reprF x) : litToken l (l.env.reprF x) = some (.float x) := by
  obtain ⟨a, b, c⟩ := not_name (t := l.env.reprF x) fun c hc => (charsF_num (ht.charsF x c hc)).2.2.2.2.2.2.2
  rw [litToken, if_neg a, if_neg b, if_neg c, parseInt_reprF ht]
  simp [hn, ht.readF]

/-- characters of the name of a member -/
def NameChars (t : PyStr) : Prop := ∀ c ∈ t, c < 128 ∧ c ≠ 47

instance (t : PyStr) : Decidable (NameChars t) := inferInstanceAs (Decidable (∀ c ∈ t, c < 128 ∧ c ≠ 47))

theorem NameChars.append {s t : PyStr} (hs : NameChars s) (ht : NameChars t) : NameChars (s ++ t) := by
  intro c hc
  rcases List.mem_append.1 hc with h | h
  · exact hs c h
  · exact ht c h

theorem NameChars.cons {c : Nat} {t : PyStr} (hc : c < 128 ∧ c ≠ 47) (ht : NameChars t) : NameChars (c :: t) := by
  intro x hx
  cases hx with
  | head => exact hc
  | tail _ h => exact ht x h

theorem PlainStr.nameChars {l : Libs} {s : PyStr} (h : PlainStr l s) : NameChars (reprStr l.printable s) := by
  intro c hc
  rcases reprStr_chars l.printable s c hc with ⟨h1, h2, h3⟩ | ⟨h1, h2, h3⟩
  · exact ⟨by omega, fun e => h.noSlash (h3 e)⟩
  · rw [h.ascii c h1 h2] at h3; simp at h3

/-- what is needed of the text of a value inside of a tuple -/
structure Reads (l : Libs) (v : PV) (t : PyStr) : Prop where
  chars : NameChars t
  ne : t ≠ []
  head : t.head? ≠ some 41
  lit : ∀ (f : Nat) (rest : PyStr), t.length ≤ f → Ends rest → lit l f (t ++ rest) = some (v, rest)

theorem Reads.token {l : Libs} {v : PV} {t : PyStr} (hc : ∀ c ∈ t, c < 128 ∧ c ≠ 47 ∧ tokenEnd c = false ∧ c ≠ 40 ∧ c ≠ 39 ∧ c ≠ 34 ∧ c ≠ 98)
    (hne : t ≠ []) (hv : litToken l t = some v) : Reads l v t where
  chars := fun c h => ⟨(hc c h).1, (hc c h).2.1⟩
  ne := hne
  head := by
    intro h
    have := (hc 41 (List.mem_of_mem_head? (by simp [h]))).2.2.1
    simp [tokenEnd] at this
  lit := by
    intro f rest hf hr
    obtain ⟨f, rfl⟩ : ∃ g, f = g + 1 := ⟨f - 1, by
      have := List.length_pos_iff.2 hne
      omega⟩
    refine lit_token (fun c h => (hc c h).2.2.1) (fun c h => ?_) hne hr hv
    have := hc c (List.mem_of_mem_head? (by simp [h]))
    exact ⟨this.2.2.2.1, this.2.2.2.2.1, this.2.2.2.2.2.1, this.2.2.2.2.2.2⟩

theorem Reads.str {l : Libs} {s : PyStr} (h : PlainStr l s) : Reads l (.str s) (reprStr l.printable s) where
  chars := h.nameChars
  ne := by simp [reprStr]
  head := by
    have := quoteFor_eq s
    simp only [reprStr, List.cons_append, List.head?_cons]
    intro e
    injection e with e
    omega
  lit := by
    intro f rest hf _
    have h1 := litStr_repr l.printable h.chars rest
    obtain ⟨f, rfl⟩ : ∃ g, f = g + 1 := ⟨f - 1, by
      have : 0 < (reprStr l.printable s).length := List.length_pos_iff.2 (by simp [reprStr])
      omega⟩
    have hq := quoteFor_eq s
    simp only [reprStr, List.cons_append] at h1 ⊢
    rw [litStr, if_pos hq] at h1
    rw [V3.lit, if_neg (by omega), if_pos hq, h1]
    rfl

theorem Reads.bytes {l : Libs} {b : Bytes} (h : 47 ∉ b) : Reads l (.bytes b) (reprBytes b) where
  chars := by
    refine .cons (by decide) fun c hc => ?_
    rcases reprStr_chars _ _ c hc with ⟨h1, h2, h3⟩ | ⟨_, _, h3⟩
    · refine ⟨by omega, fun e => h ?_⟩
      obtain ⟨x, hx, he⟩ := List.mem_map.1 (h3 e)
      have : x = 47 := UInt8.toNat_inj.1 he
      exact this ▸ hx
    · simp at h3
  ne := by simp [reprBytes]
  head := by simp [reprBytes]
  lit := by
    intro f rest hf _
    have hb : ∀ c ∈ b.map UInt8.toNat, c < 256 := by
      intro c hc
      obtain ⟨x, _, rfl⟩ := List.mem_map.1 hc
      exact x.toNat_lt
    have h1 := litStr_repr (fun _ => false) (s := b.map UInt8.toNat) (fun c hc => by have := hb c hc; omega) rest
    obtain ⟨f, rfl⟩ : ∃ g, f = g + 1 := ⟨f - 1, by simp [reprBytes] at hf; omega⟩
    simp only [reprBytes, List.cons_append]
    rw [V3.lit, if_neg (by decide), if_neg (by decide), if_pos rfl, h1]
    simp only []
    rw [if_pos (by simpa using hb), List.map_map]
    have : b.map (UInt8.ofNat ∘ UInt8.toNat) = b := by
      conv => rhs; rw [← List.map_id b]
      refine List.map_congr_left fun x _ => ?_
      simp
    rw [this]

/-- texts of the items of a tuple -/
inductive ReadsAll (l : Libs) : List PV → List PyStr → Prop
  | nil : ReadsAll l [] []
  | cons {v : PV} {t : PyStr} {vs : List PV} {ts : List PyStr} : Reads l v t → ReadsAll l vs ts → ReadsAll l (v :: vs) (t :: ts)

theorem ReadsAll.of {l : Libs} : ∀ {items : List PV}, (∀ x ∈ items, ∀ t, reprPV l x = .ok t → Reads l x t) → ∀ {ts : List PyStr}, reprPVs l items = .ok ts → ReadsAll l items ts
  | [], _, ts, h => by simp [reprPVs] at h; subst h; exact .nil
  | x :: xs, hr, ts, h => by
    rw [reprPVs] at h
    cases ht : reprPV l x with
    | error e => simp [ht, bind, Except.bind] at h
    | ok t =>
      cases hts : reprPVs l xs with
      | error e => simp [ht, hts, bind, Except.bind] at h
      | ok ts' =>
        simp only [ht, hts, bind, Except.bind] at h
        injection h with h
        subst h
        exact .cons (hr x (by simp) t ht) (.of (fun y hy => hr y (by simp [hy])) hts)

theorem ReadsAll.chars {l : Libs} {vs : List PV} {ts : List PyStr} (h : ReadsAll l vs ts) : NameChars (joinItems ts) := by
  induction h with
  | nil => simp [NameChars, joinItems]
  | cons h1 h2 ih =>
    cases h2 with
    | nil => exact h1.chars
    | cons => exact h1.chars.append (.cons (by decide) (.cons (by decide) ih))

theorem ends41 (rest : PyStr) : Ends (41 :: rest) := by intro c h; simp at h; subst h; rfl
theorem ends44 (rest : PyStr) : Ends (44 :: rest) := by intro c h; simp at h; subst h; rfl

theorem ReadsAll.items {l : Libs} {vs : List PV} {ts : List PyStr} (h : ReadsAll l vs ts) (hne : vs ≠ []) (rest : PyStr) :
    ∀ f, (joinItems ts).length + 1 ≤ f → litItems l f (joinItems ts ++ 41 :: rest) = some (vs, rest) := by
  induction h with
  | nil => exact absurd rfl hne
  | @cons v t vs ts h1 h2 ih =>
    intro f hf
    obtain ⟨f, rfl⟩ : ∃ g, f = g + 1 := ⟨f - 1, by omega⟩
    cases h2 with
    | nil =>
      simp only [joinItems] at hf ⊢
      rw [litItems, h1.lit f _ (by omega) (ends41 rest)]
      simp
    | @cons v' t' vs' ts' h3 h4 =>
      simp only [joinItems, List.length_append, List.length_cons] at hf
      have := ih (by simp) f (by omega)
      simp only [joinItems, List.append_assoc, List.cons_append]
      rw [litItems, h1.lit f _ (by omega) (ends44 _)]
      simp only [List.head?_cons, List.tail_cons]
      rw [if_neg (by decide), if_pos (by decide), this]

theorem Reads.tuple {l : Libs} {items : List PV} (hr : ∀ x ∈ items, ∀ t, reprPV l x = .ok t → Reads l x t) {t : PyStr} (ht : reprPV l (.seq .tuple items) = .ok t) :
    Reads l (.seq .tuple items) t := by
  rw [reprPV] at ht
  cases hts : reprPVs l items with
  | error e => simp [hts, bind, Except.bind] at ht
  | ok ts =>
    have ha := ReadsAll.of hr hts
    simp only [hts, bind, Except.bind] at ht
    cases ha with
    | nil =>
      injection ht with ht; subst ht
      refine ⟨by decide, by simp, by simp [joinItems], ?_⟩
      intro f rest hf _
      obtain ⟨f, rfl⟩ : ∃ g, f = g + 1 := ⟨f - 1, by simp [joinItems] at hf; omega⟩
      simp [joinItems, V3.lit]
    | @cons v t1 vs ts h1 h2 =>
      cases h2 with
      | nil =>
        injection ht with ht; subst ht
        refine ⟨.cons (by decide) (h1.chars.append (by decide)), by simp, by simp, ?_⟩
        intro f rest hf _
        simp only [List.length_append, List.length_cons, List.length_nil] at hf
        obtain ⟨f, rfl⟩ : ∃ g, f = g + 1 := ⟨f - 1, by omega⟩
        simp only [List.cons_append, List.append_assoc, List.nil_append]
        rw [V3.lit, if_pos rfl, if_neg (by
          cases hh : t1 with
          | nil => exact absurd hh h1.ne
          | cons c t => have := h1.head; rw [hh] at this; simpa using this), h1.lit f _ (by omega) (ends44 _)]
        simp
      | @cons v' t' vs' ts' h3 h4 =>
        injection ht with ht; subst ht
        have hj := ReadsAll.cons h3 h4
        refine ⟨.cons (by decide) (.append (ReadsAll.cons h1 hj).chars (by decide)), by simp, by simp, ?_⟩
        intro f rest hf _
        simp only [joinItems, List.length_append, List.length_cons, List.length_nil] at hf
        obtain ⟨f, rfl⟩ : ∃ g, f = g + 1 := ⟨f - 1, by omega⟩
        have hi := hj.items (by simp) rest f (by omega)
        rw [show joinItems (t1 :: t' :: ts') = t1 ++ 44 :: 32 :: joinItems (t' :: ts') from rfl]
        simp only [List.cons_append, List.append_assoc, List.nil_append]
        rw [V3.lit, if_pos rfl, if_neg (by
          cases hh : t1 with
          | nil => exact absurd hh h1.ne
          | cons c t => have := h1.head; rw [hh] at this; simpa using this), h1.lit f _ (by omega) (ends44 _)]
        simp only [List.head?_cons, List.tail_cons]
        rw [if_neg (by simp), if_pos (by simp), hi]

theorem Literal.reads {l : Libs} (hx : TextOk l.env) {v : PV} (h : Literal l v) : ∀ t, reprPV l v = .ok t → Reads l v t := by
  induction h with
  | none =>
    intro t ht; simp only [reprPV] at ht; injection ht with ht; subst ht
    exact .token (by decide) (by decide) rfl
  | bool b =>
    intro t ht
    cases b <;> simp only [reprPV] at ht <;> injection ht with ht <;> subst ht
    · exact .token (by decide) (by decide) rfl
    · exact .token (by decide) (by decide) rfl
  | int i =>
    intro t ht; simp only [reprPV] at ht
    split at ht
    · next hd =>
      injection ht with ht; subst ht
      refine .token (fun c hc => ?_) (showInt_ne_nil i) (litToken_int hd)
      have := showInt_num hc
      exact ⟨this.1, this.2.1, this.2.2.1, this.2.2.2.1, this.2.2.2.2.1, this.2.2.2.2.2.1, this.2.2.2.2.2.2.1⟩
    · simp at ht
  | float x hn =>
    intro t ht; simp only [reprPV] at ht; injection ht with ht; subst ht
    refine .token (fun c hc => ?_) (reprF_ne_nil hx x) (litToken_float hx hn)
    have := charsF_num (hx.charsF x c hc)
    exact ⟨this.1, this.2.1, this.2.2.1, this.2.2.2.1, this.2.2.2.2.1, this.2.2.2.2.2.1, this.2.2.2.2.2.2.1⟩
  | str s h =>
    intro t ht; simp only [reprPV] at ht; injection ht with ht; subst ht
    exact .str h
  | bytes b h =>
    intro t ht; simp only [reprPV] at ht; injection ht with ht; subst ht
    exact .bytes h
  | tuple items _ ih => intro t ht; exact .tuple ih ht

theorem Reads.eval {l : Libs} {v : PV} {t : PyStr} (h : Reads l v t) : literalEval l t = .ok v := by
  have := h.lit (t.length + 1) [] (by omega) (by intro c hc; simp at hc)
  rw [List.append_nil] at this
  simp [literalEval, this]

theorem comps_go {t : PyStr} (h : 47 ∉ t) : ∀ acc, comps.go acc t = [acc.reverse ++ t] := by
  induction t with
  | nil => intro acc; simp [comps.go]
  | cons c t ih =>
    intro acc
    rw [comps.go, if_neg (by intro e; exact h (by simp [e])), ih (fun hm => h (by simp [hm]))]
    simp

/-- the text of a key is a name -/
theorem comps_name {t : PyStr} (h : 47 ∉ t) (hne : t ≠ []) (hd : t ≠ [46]) : comps t = [t] := by
  rw [comps, comps_go h]
  simp [hne, hd]

/-- what is needed of the name of the group of a key -/
structure KeyName (l : Libs) (k : PV) (t : PyStr) : Prop where
  chars : NameChars t
  comps : comps t = [t]
  conv : convKey l (keyTypeName k) t = .ok k

theorem KeyName.of_eval {l : Libs} {k : PV} {t : PyStr} (h : Reads l k t) (hd : t ≠ [46]) (hk : keyTypeName k = "<class 'str'>" ∨ keyTypeName k = "<class 'tuple'>") :
    KeyName l k t where
  chars := h.chars
  comps := comps_name (fun hm => (h.chars 47 hm).2 rfl) h.ne hd
  conv := by
    rw [convKey, if_pos (by rcases hk with hk | hk <;> simp [hk]), h.eval]

/-- **the key of an entry comes back** -/
theorem Key.name {l : Libs} (hx : TextOk l.env) {k : PV} (h : Key l k) {t : PyStr} (ht : keyText l k = .ok t) : KeyName l k t := by
  cases h with
  | str s hs =>
    simp only [keyText, reprPV] at ht; injection ht with ht; subst ht
    refine .of_eval (.str hs) ?_ (.inl rfl)
    have := quoteFor_eq s
    simp [reprStr]
  | int i =>
    simp only [keyText, reprPV] at ht
    split at ht
    · next hd =>
      injection ht with ht; subst ht
      have hc : NameChars (showInt i) := fun c hc => ⟨(showInt_num hc).1, (showInt_num hc).2.1⟩
      refine ⟨hc, comps_name (fun hm => (hc 47 hm).2 rfl) (showInt_ne_nil i) ?_, ?_⟩
      · intro e
        have := showInt_chars i 46 (by simp [e])
        simp [isDigit] at this
      · simp [convKey, keyTypeName, parseInt_showInt, hd]
    · simp at ht
  | float x =>
    simp only [keyText, reprPV] at ht; injection ht with ht; subst ht
    have hc : NameChars (l.env.reprF x) := fun c hc => ⟨(charsF_num (hx.charsF x c hc)).1, (charsF_num (hx.charsF x c hc)).2.1⟩
    refine ⟨hc, comps_name (fun hm => (hc 47 hm).2 rfl) (reprF_ne_nil hx x) (hx.dotF x), ?_⟩
    simp [convKey, keyTypeName, hx.readF]
  | cplx x y =>
    simp only [keyText, reprPV] at ht; injection ht with ht; subst ht
    have hc : NameChars (l.env.reprC x y) := by
      have : ∀ c ∈ ps "0123456789+-.einfa()j", c < 128 ∧ c ≠ 47 := by decide
      exact fun c hc => this c (hx.charsC x y c hc)
    have hj := hx.jC x y
    refine ⟨hc, comps_name (fun hm => (hc 47 hm).2 rfl) ?_ ?_, ?_⟩
    · intro e; rw [e] at hj; simp at hj
    · intro e; rw [e] at hj; simp at hj
    · simp [convKey, keyTypeName, hx.readC]
  | true =>
    simp only [keyText, reprPV] at ht; injection ht with ht; subst ht
    exact ⟨by decide, by decide, rfl⟩
  | tuple items hi =>
    have ht' : reprPV l (.seq .tuple items) = .ok t := ht
    have hr := Literal.reads hx (.tuple items hi) t ht'
    refine .of_eval hr ?_ (.inr rfl)
    rintro rfl
    have := hr.lit 1 [] (by simp) (by intro c hc; simp at hc)
    rw [reprPV] at ht'
    cases hts : reprPVs l items with
    | error e => simp [hts, bind, Except.bind] at ht'
    | ok ts =>
      simp only [hts, bind, Except.bind] at ht'
      split at ht' <;> simp at ht'

end Verif.V3
