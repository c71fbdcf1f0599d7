import Verif.Py.Err
/-! # Invariants of computations, whatever their outcome -/
namespace Verif

/-- `x` keeps the invariant, also when it raises; its result satisfies `Q` -/
def Keeps {σ α : Type} (I : σ → Prop) (x : M σ α) (Q : α → Prop := fun _ => True) : Prop :=
  ∀ s, I s → I (x s).2 ∧ ∀ a, (x s).1 = .ok a → Q a

namespace Keeps
variable {σ α β : Type} {I : σ → Prop}

theorem bind {x : M σ α} {f : α → M σ β} {Q : α → Prop} {Q' : β → Prop} (hx : Keeps I x Q) (hf : ∀ a, Q a → Keeps I (f a) Q') :
    Keeps I (x >>= f) Q' := by
  intro s hs
  obtain ⟨h1, h2⟩ := hx s hs
  rw [M.bind_apply]
  split
  · next a s1 e =>
    rw [e] at h1 h2
    exact hf a (h2 a rfl) s1 h1
  · next e s1 he =>
    rw [he] at h1
    exact ⟨h1, by simp⟩

theorem pure {Q : α → Prop} {a : α} (h : Q a) : Keeps I (pure a : M σ α) Q := fun s hs => ⟨hs, fun b hb => by
  simp at hb; subst hb; exact h⟩

theorem throw {Q : α → Prop} (e : PyErr) : Keeps I (M.throw e : M σ α) Q := fun s hs => ⟨hs, fun b hb => by simp at hb⟩

theorem get : Keeps I (M.get : M σ σ) I := fun s hs => ⟨hs, fun b hb => by simp at hb; subst hb; exact hs⟩

theorem modify {f : σ → σ} {Q : Unit → Prop} (h : ∀ s, I s → I (f s)) (hQ : Q ()) : Keeps I (M.modify f) Q := fun s hs => ⟨h s hs, fun _ _ => hQ⟩

theorem ofExcept {Q : α → Prop} {x : Except PyErr α} (h : ∀ a, x = .ok a → Q a) : Keeps I (M.ofExcept x : M σ α) Q :=
  fun s hs => ⟨hs, fun a ha => h a ha⟩

theorem attempt {x : M σ α} {Q : α → Prop} (h : Keeps I x Q) : Keeps I (M.attempt x) (fun r => ∀ a, r = .ok a → Q a) := fun s hs => by
  obtain ⟨h1, h2⟩ := h s hs
  exact ⟨h1, fun b hb a ha => by simp at hb; exact h2 a (hb.trans ha)⟩

theorem weaken {x : M σ α} {Q Q' : α → Prop} (h : Keeps I x Q) (hq : ∀ a, Q a → Q' a) : Keeps I x Q' :=
  fun s hs => ⟨(h s hs).1, fun a ha => hq a ((h s hs).2 a ha)⟩

theorem forEach {f : α → M σ Unit} {Q : Unit → Prop} (hQ : Q ()) (xs : List α) (h : ∀ x ∈ xs, Keeps I (f x)) : Keeps I (M.forEach f xs) Q := by
  induction xs with
  | nil => exact pure hQ
  | cons x xs ih => exact bind (h x (by simp)) fun _ _ => ih fun y hy => h y (by simp [hy])

theorem foldEach {f : β → α → M σ β} {Q : β → Prop} {b : β} (hb : Q b) (xs : List α) (h : ∀ b, Q b → ∀ x ∈ xs, Keeps I (f b x) Q) :
    Keeps I (M.foldEach f b xs) Q := by
  induction xs generalizing b with
  | nil => exact pure hb
  | cons x xs ih => exact bind (h b hb x (by simp)) fun b' hb' => ih hb' fun c hc y hy => h c hc y (by simp [hy])

/-- on success -/
theorem ok {x : M σ α} {Q : α → Prop} (h : Keeps I x Q) {s s' : σ} {r} (hs : I s) (e : x s = (r, s')) : I s' := by
  have := (h s hs).1
  rw [e] at this; exact this

end Keeps
end Verif
