import Verif.Hickle.CustomLoad
/-!
# Loaders that are right alone are right together
-/
namespace Verif.Custom

variable {C D V P K : Type} [DecidableEq C]

theorem register_ok {core : Core C D V P K} {r : Reg C D V P K} {t t' : Tables C D V P K} (h : register core r t = .ok t') :
    r.cls ≠ core.object ∧ r.base ∉ reserved ∧ t' = ⟨Assoc.put t.types r.cls r.entry, Assoc.put t.conts r.base r.restorer⟩ := by
  unfold register at h
  split at h
  · simp at h
  · next h1 =>
    split at h
    · simp at h
    · next h2 => simp at h; exact ⟨h1, by simpa using h2, h.symm⟩

/-- what is in the tables after registrations -/
theorem each_register {core : Core C D V P K} (regs : List (Reg C D V P K)) (hd : regs.Pairwise fun r r' => r.base ≠ r'.base) (t t' : Tables C D V P K)
    (h : each (register core) regs t = .ok t') :
    (∀ k e, Assoc.get? t'.types k = some e → Assoc.get? t.types k = some e ∨ ∃ r ∈ regs, r.cls = k ∧ e = r.entry) ∧
    (∀ r ∈ regs, r.cls ≠ core.object ∧ r.base ∉ reserved ∧ Assoc.get? t'.conts r.base = some r.restorer) ∧
    ∀ b, (∀ r ∈ regs, r.base ≠ b) → Assoc.get? t'.conts b = Assoc.get? t.conts b := by
  induction regs generalizing t with
  | nil =>
    simp only [each, Except.ok.injEq] at h
    subst h
    exact ⟨fun k e h => .inl h, by simp, fun _ _ => rfl⟩
  | cons r regs ih =>
    simp only [each] at h
    split at h
    · next t1 h1 =>
      obtain ⟨c1, c2, rfl⟩ := register_ok h1
      obtain ⟨d1, d2⟩ := List.pairwise_cons.1 hd
      obtain ⟨e1, e2, e3⟩ := ih d2 _ h
      refine ⟨?_, ?_, ?_⟩
      · intro k e hk
        rcases e1 k e hk with hk | ⟨r', h2, h3⟩
        · simp only [Assoc.get?_put] at hk
          split at hk
          · next hk' => simp at hk; exact .inr ⟨r, by simp, hk', hk.symm⟩
          · exact .inl hk
        · exact .inr ⟨r', by simp [h2], h3⟩
      · intro r' hr
        rcases List.mem_cons.1 hr with rfl | hr
        · refine ⟨c1, c2, ?_⟩
          rw [e3 _ fun r hr => (d1 r hr).symm]
          simp
        · exact e2 r' hr
      · intro b hb
        rw [e3 b fun r hr => hb r (by simp [hr])]
        exact Assoc.get?_put_ne _ _ (hb r (by simp))
    · simp at h

theorem findSome?_mem {α β : Type} {f : α → Option β} {l : List α} {b : β} (h : l.findSome? f = some b) : ∃ a ∈ l, f a = some b := by
  induction l with
  | nil => simp at h
  | cons a l ih =>
    rw [List.findSome?_cons] at h
    cases hf : f a with
    | none => rw [hf] at h; obtain ⟨x, h1, h2⟩ := ih h; exact ⟨x, by simp [h1], h2⟩
    | some c => rw [hf] at h; simp at h; subst h; exact ⟨a, by simp, hf⟩

/-- the entry of a class is one that was registered for one of its bases, or there is none -/
theorem entry_cases {core : Core C D V P K} {regs : List (Reg C D V P K)} (hd : regs.Pairwise fun r r' => r.base ≠ r'.base) {t : Tables C D V P K}
    (h : registerAll core regs = .ok t) (c : C) :
    (∃ r ∈ regs, r.cls ∈ core.mro c ∧ t.entry core c = r.entry) ∨ t.entry core c = ⟨fun _ _ => .error .notHicklable, "pickle", true⟩ := by
  obtain ⟨e1, _, _⟩ := each_register regs hd _ _ h
  unfold Tables.entry
  cases hf : (core.mro c).findSome? (Assoc.get? t.types) with
  | none => exact .inr rfl
  | some e =>
    obtain ⟨k, h1, h2⟩ := findSome?_mem hf
    rcases e1 k e h2 with h3 | ⟨r, h3, rfl, rfl⟩
    · simp at h3
    · exact .inl ⟨r, h3, h1, rfl⟩

theorem contract {core : Core C D V P K} (hobj : core.mro core.object = [core.object]) {good : Heap C D → Prop} {shares : C → Prop} {isSub : String → Prop} {regs : List (Reg C D V P K)}
    (hd : regs.Pairwise fun r r' => r.base ≠ r'.base) {fits : Obj C D → Prop} (hok : ∀ r ∈ regs, LoaderFor core fits shares r) (hfit : ∀ (H : Heap C D) (a : Nat) o, good H → H[a]? = some o → fits o)
    (hap : ∀ r ∈ regs, Apart isSub r)
    {t : Tables C D V P K} (h : registerAll core regs = .ok t) (hstay : ∀ r ∈ regs, ∀ H o m, good H → r.create H o = .ok m → good m.heap)
    (hpk : ∀ (H : Heap C D) (a : Nat) o p, good H → H[a]? = some o → (t.entry core o.cls).create H o = .error .notHicklable → core.pickle H a = .ok p →
      Restores shares core.unpickle core.object o ⟨p, [], [], H⟩) : Contract (t.loaders core) good shares isSub := by
  have hcase := entry_cases hd h
  obtain ⟨e1, e2, e3⟩ := each_register regs hd _ _ h
  have hpick : (t.loaders core).restorer "pickle" = core.unpickle := by
    simp only [Tables.loaders]
    rw [e3 "pickle"]
    · simp [Assoc.get?]
    · intro r hr hb
      exact (e2 r hr).2.1 (by rw [hb]; simp [reserved])
  refine ⟨?_, ?_, ?_, ?_, ?_, ?_, ?_, ?_⟩
  · intro c hs
    rcases hcase c with ⟨r, h1, h2, h3⟩ | h1
    · simp only [Tables.loaders, h3, Reg.entry]; exact (hok r h1).memo c h2 hs
    · simp [Tables.loaders, h1]
  · intro H o m hm
    rcases hcase o.cls with ⟨r, h1, h2, h3⟩ | h1
    · simp only [Tables.loaders, h3, Reg.entry] at hm; exact (hok r h1).keep _ _ _ hm
    · simp [Tables.loaders, h1] at hm
  · intro H o m hg hm
    rcases hcase o.cls with ⟨r, h1, h2, h3⟩ | h1
    · simp only [Tables.loaders, h3, Reg.entry] at hm; exact hstay r h1 _ _ _ hg hm
    · simp [Tables.loaders, h1] at hm
  · intro H o m hm
    rcases hcase o.cls with ⟨r, h1, h2, h3⟩ | h1
    · simp only [Tables.loaders, h3, Reg.entry] at hm; exact (hap r h1 _ _ _ hm).1
    · simp [Tables.loaders, h1] at hm
  · intro H o m hm
    rcases hcase o.cls with ⟨r, h1, h2, h3⟩ | h1
    · simp only [Tables.loaders, h3, Reg.entry] at hm; exact (hap r h1 _ _ _ hm).2
    · simp [Tables.loaders, h1] at hm
  · intro H a o m hg ho hm
    rcases hcase o.cls with ⟨r, h1, h2, h3⟩ | h1
    · simp only [Tables.loaders, h3, Reg.entry] at hm ⊢
      rw [(e2 r h1).2.2]
      exact (hok r h1).restores _ _ _ _ (hfit H a o hg ho) h2 ho hm
    · simp [Tables.loaders, h1] at hm
  · intro H a o p hg ho hr hp
    rw [hpick]
    exact hpk H a o p hg ho hr hp
  · simp only [Tables.loaders]
    rcases hcase core.object with ⟨r, h1, h2, h3⟩ | h1
    · rw [hobj] at h2; simp at h2
      exact ((e2 r h1).1 h2).elim
    · rw [h1]

end Verif.Custom
