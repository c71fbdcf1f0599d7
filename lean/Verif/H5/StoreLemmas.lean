import Verif.H5.Store
/-! # Facts about the store operations -/
namespace Verif
namespace Store

theorem links_eq {s : Store} {n : NodeId} {ls} (h : s.links n = some ls) :
    ∃ nd, s[n]? = some nd ∧ nd.body = .group ls := by
  unfold links at h
  split at h
  · next l hn => simp at h; subst h; exact ⟨_, hn, rfl⟩
  · simp at h

theorem links_of {s : Store} {n : NodeId} {ls} {nd : Node} (h : s[n]? = some nd) (hb : nd.body = .group ls) :
    s.links n = some ls := by
  unfold links; rw [h]; cases nd; simp at hb; subst hb; rfl

/-- what `create` did when it succeeded -/
theorem create_ok {s s' : Store} {p n : NodeId} {name : PyStr} {body : Body}
    (h : s.create p name body = .ok (n, s')) :
    ∃ nd ls, s[p]? = some nd ∧ nd.body = .group ls ∧ Assoc.get? ls name = none ∧ badName name = false ∧
      (utf8Encode name).isSome ∧
      n = s.length ∧ s'.length = s.length + 1 ∧
      s'[n]? = some { name := name, body := body } ∧
      s'[p]? = some { nd with body := .group (ls ++ [(name, n)]) } ∧
      ∀ m, m ≠ p → m ≠ n → s'[m]? = s[m]? := by
  unfold create at h
  split at h
  · simp at h
  · next ls hls =>
    obtain ⟨nd, hnd, hb⟩ := links_eq hls
    split at h
    · simp at h
    · next hbad =>
      split at h
      · simp at h
      · next hu =>
        split at h
        · simp at h
        · next hg =>
          simp only [Except.ok.injEq, Prod.mk.injEq] at h
          obtain ⟨rfl, rfl⟩ := h
          have hp : p < s.length := by
            rcases Nat.lt_or_ge p s.length with h | h
            · exact h
            · rw [List.getElem?_eq_none h] at hnd; simp at hnd
          refine ⟨nd, ls, hnd, hb, by simpa using hg, by simpa using hbad, ?_, rfl, ?_, ?_, ?_, ?_⟩
          · cases hx : utf8Encode name
            · rw [hx] at hu; simp at hu
            · rfl
          · simp
          · rw [List.getElem?_append_right (by simp)]; simp
          · rw [List.getElem?_append_left (by simpa using hp), List.getElem?_modify]
            simp [hnd]
          · intro m hm1 hm2
            rcases Nat.lt_trichotomy m s.length with hlt | heq | hgt
            · rw [List.getElem?_append_left (by simpa using hlt), List.getElem?_modify]
              simp [Ne.symm hm1]
            · exact absurd heq hm2
            · rw [List.getElem?_eq_none (by simp; omega), List.getElem?_eq_none (by omega)]

@[simp] theorem length_setAttr (s : Store) (n : NodeId) (k : String) (v : AttrVal) :
    (s.setAttr n k v).length = s.length := by simp [setAttr]

theorem getElem?_setAttr_self {s : Store} {n : NodeId} {nd : Node} (h : s[n]? = some nd) (k : String) (v : AttrVal) :
    (s.setAttr n k v)[n]? = some { nd with attrs := Assoc.put nd.attrs k v } := by
  unfold setAttr; rw [List.getElem?_modify]; simp [h]

theorem getElem?_setAttr_ne {s : Store} {n m : NodeId} (h : m ≠ n) (k : String) (v : AttrVal) :
    (s.setAttr n k v)[m]? = s[m]? := by
  unfold setAttr; rw [List.getElem?_modify]; simp [Ne.symm h]

theorem links_congr {s s' : Store} {n : NodeId} (h : s'[n]? = s[n]?) : s'.links n = s.links n := by
  unfold links; rw [h]

@[simp] theorem links_setAttr (s : Store) (n m : NodeId) (k : String) (v : AttrVal) : (s.setAttr n k v).links m = s.links m := by
  by_cases h : m = n
  · subst h
    unfold links
    cases hm : s[m]? with
    | none => unfold setAttr; rw [List.getElem?_modify]; simp [hm]
    | some nd => rw [getElem?_setAttr_self hm]; obtain ⟨a, b, c⟩ := nd; cases c <;> rfl
  · exact links_congr (getElem?_setAttr_ne h k v)

@[simp] theorem length_write (s : Store) (n : NodeId) (d : Data) : (s.write n d).length = s.length := by simp [write]

theorem getElem?_write_self {s : Store} {n : NodeId} {nd : Node} {d0 : Data} (h : s[n]? = some nd) (hb : nd.body = .dset d0) (d : Data) :
    (s.write n d)[n]? = some { nd with body := .dset d } := by
  unfold write; rw [List.getElem?_modify]; simp [h, hb]

theorem getElem?_write_group {s : Store} {n : NodeId} {nd : Node} {ls} (h : s[n]? = some nd) (hb : nd.body = .group ls) (d : Data) :
    (s.write n d)[n]? = some nd := by
  unfold write; rw [List.getElem?_modify]; simp [h, hb]

theorem getElem?_write_ne {s : Store} {n m : NodeId} (h : m ≠ n) (d : Data) : (s.write n d)[m]? = s[m]? := by
  unfold write; rw [List.getElem?_modify]; simp [Ne.symm h]

@[simp] theorem links_write (s : Store) (n m : NodeId) (d : Data) : (s.write n d).links m = s.links m := by
  by_cases h : m = n
  · subst h
    unfold links
    cases hm : s[m]? with
    | none => unfold write; rw [List.getElem?_modify]; simp [hm]
    | some nd =>
      cases hb : nd.body with
      | dset d0 => rw [getElem?_write_self hm hb]; obtain ⟨a, b, c⟩ := nd; cases hb; rfl
      | group ls => rw [getElem?_write_group hm hb]
  · exact links_congr (getElem?_write_ne h d)

theorem body_setAttr {s : Store} {n m : NodeId} {nd : Node} (h : s[m]? = some nd) (k : String) (v : AttrVal) :
    ∃ nd', (s.setAttr n k v)[m]? = some nd' ∧ nd'.body = nd.body ∧ nd'.name = nd.name := by
  by_cases hm : m = n
  · subst hm; exact ⟨_, getElem?_setAttr_self h k v, rfl, rfl⟩
  · exact ⟨nd, by rw [getElem?_setAttr_ne hm]; exact h, rfl, rfl⟩

end Store

/-- a node as it is after more has been written to the file: datasets and attributes stay, groups
gain links -/
structure NodeLe (a b : Node) : Prop where
  name : b.name = a.name
  attrs : b.attrs = a.attrs
  dset : ∀ d, a.body = .dset d → b.body = .dset d
  group : ∀ l, a.body = .group l → ∃ l', b.body = .group (l ++ l')

theorem NodeLe.refl (a : Node) : NodeLe a a := ⟨rfl, rfl, fun _ h => h, fun l h => ⟨[], by simpa using h⟩⟩
theorem NodeLe.trans {a b c : Node} (h1 : NodeLe a b) (h2 : NodeLe b c) : NodeLe a c where
  name := h2.name.trans h1.name
  attrs := h2.attrs.trans h1.attrs
  dset d h := h2.dset d (h1.dset d h)
  group l h := by
    obtain ⟨l1, e1⟩ := h1.group l h
    obtain ⟨l2, e2⟩ := h2.group _ e1
    exact ⟨l1 ++ l2, by rw [e2, List.append_assoc]⟩

/-- the file grew -/
def SExt (s s' : Store) : Prop := ∀ (n : NodeId) (nd : Node), s[n]? = some nd → ∃ nd', s'[n]? = some nd' ∧ NodeLe nd nd'

theorem SExt.refl (s : Store) : SExt s s := fun _ nd h => ⟨nd, h, NodeLe.refl nd⟩
theorem SExt.trans {a b c : Store} (h1 : SExt a b) (h2 : SExt b c) : SExt a c := fun n nd h => by
  obtain ⟨nd1, e1, l1⟩ := h1 n nd h
  obtain ⟨nd2, e2, l2⟩ := h2 n nd1 e1
  exact ⟨nd2, e2, l1.trans l2⟩

theorem SExt.length {a b : Store} (h : SExt a b) : a.length ≤ b.length := by
  rcases Nat.lt_or_ge b.length a.length with hl | hl
  · exfalso
    have hb : b[b.length]? = none := by simp
    obtain ⟨nd, e, _⟩ := h b.length a[b.length] (by simp [hl])
    rw [hb] at e; simp at e
  · exact hl

theorem lt_of_getElem? {α : Type} {l : List α} {n : Nat} {x : α} (h : l[n]? = some x) : n < l.length := by
  rcases Nat.lt_or_ge n l.length with h' | h'
  · exact h'
  · rw [List.getElem?_eq_none h'] at h; simp at h

/-- creating a node lets the file grow -/
theorem SExt.create {s s' : Store} {p n : NodeId} {name : PyStr} {body : Body}
    (h : s.create p name body = .ok (n, s')) : SExt s s' := by
  obtain ⟨nd, ls, h1, h2, _, _, _, hn, _, _, h6, h7⟩ := Store.create_ok h
  intro m md hm
  have hml := lt_of_getElem? hm
  by_cases hp : m = p
  · subst hp
    rw [h1] at hm; simp at hm; subst hm
    exact ⟨_, h6, rfl, rfl, fun d hd => by rw [h2] at hd; simp at hd,
      fun l hl => by rw [h2] at hl; simp at hl; subst hl; exact ⟨_, rfl⟩⟩
  · exact ⟨md, by rw [h7 m hp (by rw [hn]; exact Nat.ne_of_lt hml)]; exact hm, NodeLe.refl _⟩

end Verif
