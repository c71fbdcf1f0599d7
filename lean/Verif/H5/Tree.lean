import Verif.H5.StoreLemmas
/-!
# Paths

`Store.resolve`: following links by name.  `Tree`: the links hickle creates form a tree, so every
node has exactly one path.
-/
namespace Verif

/-- follow the links named by a path from node `n` (`h5py.Group.get(path)`); `none` when a link is
missing or leads through a dataset -/
def Store.resolve (S : Store) : NodeId → List PyStr → Option NodeId
  | n, [] => some n
  | n, x :: xs =>
    match S.links n with
    | none => none
    | some ls => match Assoc.get? ls x with
      | none => none
      | some m => S.resolve m xs

theorem Store.resolve_append (S : Store) (n : NodeId) (xs ys : List PyStr) :
    S.resolve n (xs ++ ys) = (S.resolve n xs).bind fun m => S.resolve m ys := by
  induction xs generalizing n with
  | nil => rfl
  | cons x xs ih =>
    simp only [List.cons_append, Store.resolve]
    cases S.links n with
    | none => rfl
    | some ls =>
      simp only []
      cases Assoc.get? ls x with
      | none => rfl
      | some m => exact ih m

/-- the links form a tree with root 0: a link leads to a later node, no two links to the same, and
no two links of a group have the same name -/
structure Tree (S : Store) : Prop where
  root : ∃ ls, S.links 0 = some ls
  up : ∀ p ls, S.links p = some ls → ∀ e ∈ ls, p < e.2 ∧ e.2 < S.length
  one : ∀ p p' ls ls', S.links p = some ls → S.links p' = some ls' → ∀ e ∈ ls, ∀ e' ∈ ls', e.2 = e'.2 → p = p' ∧ e = e'
  names : ∀ p ls, S.links p = some ls → ls.Pairwise fun e e' => e.1 ≠ e'.1

/-- the body of a node that was just created -/
def Body.fresh : Body → Bool
  | .group ls => ls.isEmpty
  | .dset _ => true

theorem Store.create_links {s s' : Store} {p n : NodeId} {name : PyStr} {body : Body} (hf : body.fresh = true)
    (h : s.create p name body = .ok (n, s')) :
    ∃ ls, s.links p = some ls ∧ s'.links p = some (ls ++ [(name, n)]) ∧ n = s.length ∧ s'.length = s.length + 1 ∧
      (∀ ls', s'.links n = some ls' → ls' = []) ∧ ∀ m, m ≠ p → m ≠ n → s'.links m = s.links m := by
  obtain ⟨nd, ls, h1, h2, _, _, _, h3, h4, h5, h6, h7⟩ := Store.create_ok h
  refine ⟨ls, Store.links_of h1 h2, Store.links_of h6 rfl, h3, h4, ?_, fun m hm hn => Store.links_congr (h7 m hm hn)⟩
  intro ls' hl
  obtain ⟨nd', g1, g2⟩ := Store.links_eq hl
  rw [h5] at g1; simp at g1; subst g1
  simp only at g2
  rw [g2] at hf
  simpa [Body.fresh] using hf

theorem Tree.create {s s' : Store} {p n : NodeId} {name : PyStr} {body : Body} (hT : Tree s) (hf : body.fresh = true)
    (h : s.create p name body = .ok (n, s')) : Tree s' := by
  obtain ⟨ls, h1, h2, h3, h4, h5, h6⟩ := Store.create_links hf h
  have hp : p < n := by
    obtain ⟨nd, g1, _⟩ := Store.links_eq h1
    rw [h3]; exact lt_of_getElem? g1
  have key : ∀ q l, s'.links q = some l → ∀ e ∈ l, (∃ l0, s.links q = some l0 ∧ e ∈ l0) ∨ (q = p ∧ e = (name, n)) := by
    intro q l hl e he
    by_cases hq : q = p
    · subst hq
      rw [h2] at hl; simp at hl; subst hl
      rcases List.mem_append.1 he with he | he
      · exact .inl ⟨ls, h1, he⟩
      · exact .inr ⟨rfl, by simpa using he⟩
    · by_cases hn : q = n
      · subst hn
        have := h5 l hl; subst this; simp at he
      · rw [h6 q hq hn] at hl; exact .inl ⟨l, hl, he⟩
  constructor
  · by_cases h0 : 0 = p
    · subst h0; exact ⟨_, h2⟩
    · obtain ⟨l, hl⟩ := hT.root
      exact ⟨l, by rw [h6 0 h0 (by omega)]; exact hl⟩
  · intro q l hl e he
    rcases key q l hl e he with ⟨l0, g1, g2⟩ | ⟨rfl, rfl⟩
    · have := hT.up q l0 g1 e g2; omega
    · simp only; omega
  · intro q q' l l' hl hl' e he e' he' hee
    rcases key q l hl e he with ⟨l0, g1, g2⟩ | ⟨rfl, rfl⟩ <;> rcases key q' l' hl' e' he' with ⟨l0', g1', g2'⟩ | ⟨rfl, rfl⟩
    · exact hT.one q q' l0 l0' g1 g1' e g2 e' g2' hee
    · have := (hT.up q l0 g1 e g2).2
      simp only at hee; omega
    · have := (hT.up q' l0' g1' e' g2').2
      simp only at hee; omega
    · exact ⟨rfl, rfl⟩
  · intro q l hl
    by_cases hq : q = p
    · subst hq
      rw [h2] at hl; simp at hl; subst hl
      obtain ⟨nd, ls', e1, e2, e3, _⟩ := Store.create_ok h
      have := Store.links_of e1 e2
      rw [h1] at this; simp at this; subst this
      refine List.pairwise_append.2 ⟨hT.names q ls h1, by simp, ?_⟩
      intro a ha b hb hab
      simp at hb; subst hb
      simp only at hab; subst hab
      exact Assoc.get?_none_of_mem e3 ha
    · by_cases hn : q = n
      · subst hn
        have := h5 l hl; subst this; exact .nil
      · rw [h6 q hq hn] at hl; exact hT.names q l hl

theorem Tree.setAttr {s : Store} {n k v} (hT : Tree s) : Tree (s.setAttr n k v) := by
  refine ⟨?_, ?_, ?_, ?_⟩
  · obtain ⟨l, hl⟩ := hT.root; exact ⟨l, by simpa using hl⟩
  · intro p ls hl e he; simp only [Store.links_setAttr, Store.length_setAttr] at hl ⊢; exact hT.up p ls hl e he
  · intro p p' ls ls' hl hl' e he e' he' hee
    simp only [Store.links_setAttr] at hl hl'
    exact hT.one p p' ls ls' hl hl' e he e' he' hee
  · intro p ls hl; simp only [Store.links_setAttr] at hl; exact hT.names p ls hl

theorem Tree.write {s : Store} {n d} (hT : Tree s) : Tree (s.write n d) := by
  refine ⟨?_, ?_, ?_, ?_⟩
  · obtain ⟨l, hl⟩ := hT.root; exact ⟨l, by simpa using hl⟩
  · intro p ls hl e he; simp only [Store.links_write, Store.length_write] at hl ⊢; exact hT.up p ls hl e he
  · intro p p' ls ls' hl hl' e he e' he' hee
    simp only [Store.links_write] at hl hl'
    exact hT.one p p' ls ls' hl hl' e he e' he' hee
  · intro p ls hl; simp only [Store.links_write] at hl; exact hT.names p ls hl

/-- last step of a path -/
theorem Store.resolve_snoc {S : Store} {n m : NodeId} {xs : List PyStr} {x : PyStr} (h : S.resolve n (xs ++ [x]) = some m) :
    ∃ p ls, S.resolve n xs = some p ∧ S.links p = some ls ∧ Assoc.get? ls x = some m := by
  rw [Store.resolve_append] at h
  cases hp : S.resolve n xs with
  | none => rw [hp] at h; simp at h
  | some p =>
    rw [hp] at h
    simp only [Option.bind_some, Store.resolve] at h
    cases hl : S.links p with
    | none => rw [hl] at h; simp at h
    | some ls =>
      rw [hl] at h
      simp only [] at h
      cases hg : Assoc.get? ls x with
      | none => rw [hg] at h; simp at h
      | some m' => rw [hg] at h; exact ⟨p, ls, rfl, hl, by rw [hg]; simpa using h⟩

theorem Tree.path_lt {S : Store} (hT : Tree S) {n m : NodeId} {xs : List PyStr} (h : S.resolve n xs = some m) : n ≤ m := by
  induction xs generalizing n with
  | nil => simp [Store.resolve] at h; omega
  | cons x xs ih =>
    simp only [Store.resolve] at h
    cases hl : S.links n with
    | none => rw [hl] at h; simp at h
    | some ls =>
      rw [hl] at h; simp only [] at h
      cases hg : Assoc.get? ls x with
      | none => rw [hg] at h; simp at h
      | some k =>
        rw [hg] at h
        have := ih h
        have := hT.up n ls hl (x, k) (Assoc.get?_mem hg)
        simp only at this; omega

/-- every node has only one path -/
theorem Tree.path_unique {S : Store} (hT : Tree S) : ∀ (xs ys : List PyStr) {m : NodeId}, S.resolve 0 xs = some m → S.resolve 0 ys = some m → xs = ys := by
  intro xs
  induction hl : xs.length generalizing xs with
  | zero =>
    intro ys m h1 h2
    have : xs = [] := by simpa using hl
    subst this
    simp [Store.resolve] at h1; subst h1
    rcases List.eq_nil_or_concat ys with rfl | ⟨ys', y, rfl⟩
    · rfl
    · obtain ⟨p, ls, _, g2, g3⟩ := Store.resolve_snoc (by simpa using h2)
      have := hT.up p ls g2 _ (Assoc.get?_mem g3)
      simp at this
  | succ k ih =>
    intro ys m h1 h2
    rcases List.eq_nil_or_concat xs with rfl | ⟨xs', x, rfl⟩
    · simp at hl
    · simp only [List.concat_eq_append] at *
      obtain ⟨p, ls, g1, g2, g3⟩ := Store.resolve_snoc h1
      rcases List.eq_nil_or_concat ys with rfl | ⟨ys', y, rfl⟩
      · simp [Store.resolve] at h2; subst h2
        have := hT.up p ls g2 _ (Assoc.get?_mem g3)
        simp at this
      · simp only [List.concat_eq_append] at *
        obtain ⟨p', ls', g1', g2', g3'⟩ := Store.resolve_snoc h2
        obtain ⟨rfl, he⟩ := hT.one p p' ls ls' g2 g2' _ (Assoc.get?_mem g3) _ (Assoc.get?_mem g3') rfl
        have := ih xs' (by simpa using hl) ys' g1 g1'
        subst this
        simp at he; subst he; rfl

theorem Assoc.get?_append_some {κ ν : Type} [DecidableEq κ] {l l' : List (κ × ν)} {k : κ} {v : ν} (h : Assoc.get? l k = some v) :
    Assoc.get? (l ++ l') k = some v := by
  induction l with
  | nil => simp [Assoc.get?] at h
  | cons p l ih =>
    obtain ⟨a, b⟩ := p
    simp only [List.cons_append, Assoc.get?] at h ⊢
    split at h
    · next hk => rw [if_pos hk]; exact h
    · next hk => rw [if_neg hk]; exact ih h

/-- paths stay when the file grows -/
theorem Store.resolve_ext {S S' : Store} (hx : ∀ n ls, S.links n = some ls → ∃ ls', S'.links n = some (ls ++ ls')) {n m : NodeId} {xs : List PyStr}
    (h : S.resolve n xs = some m) : S'.resolve n xs = some m := by
  induction xs generalizing n with
  | nil => exact h
  | cons x xs ih =>
    simp only [Store.resolve] at h ⊢
    cases hl : S.links n with
    | none => rw [hl] at h; simp at h
    | some ls =>
      rw [hl] at h; simp only [] at h
      obtain ⟨ls', hl'⟩ := hx n ls hl
      rw [hl']
      simp only []
      cases hg : Assoc.get? ls x with
      | none => rw [hg] at h; simp at h
      | some k => rw [hg] at h; rw [Assoc.get?_append_some hg]; exact ih h

theorem SExt.links {S S' : Store} (hx : SExt S S') : ∀ n ls, S.links n = some ls → ∃ ls', S'.links n = some (ls ++ ls') := by
  intro n ls h
  obtain ⟨nd, h1, h2⟩ := Store.links_eq h
  obtain ⟨nd', g1, g2⟩ := hx n nd h1
  obtain ⟨l', g3⟩ := g2.group ls h2
  exact ⟨l', Store.links_of g1 g3⟩

end Verif
