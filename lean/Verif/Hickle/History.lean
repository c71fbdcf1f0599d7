import Verif.Hickle.Stored
/-!
# Histories of calls on one file

`Op`: one call of `dump` or `load` (successful or not), or closing and opening the file again.
`FileOk`: what holds of a file and of the process between two calls.
-/
namespace Verif

/-- one event in the life of a file -/
inductive Op where
  | dump (a : DumpArgs)
  | load (a : LoadArgs)
  /-- the file is closed and opened again, writable or not; the managers are looked up by the id of the
  open file, and a newly opened file has none (lookup.py:309) -/
  | reopen (w : Bool)

def Op.run : Op → Session → Session
  | .dump a, s => (dumpTop a s).2
  | .load a, s => (loadTop a s).2
  | .reopen w, s => { s with writable := w, ldr := false, ref := false }

def runOps : List Op → Session → Session
  | [], s => s
  | o :: os, s => runOps os (o.run s)

/-- path a call works on -/
def Op.path : Op → Option (List PyStr)
  | .dump a => some a.path
  | .load a => some a.path
  | .reopen _ => none

/-- the loader modules present during a call do not interfere with the classes in `P` -/
def Op.ok (P : Nat → Prop) : Op → Prop
  | .dump a => EnvOk P a.env ∧ ProtOk P a.env
  | .load a => EnvOk P a.env ∧ ProtOk P a.env
  | .reopen _ => True

/-- between calls: the links form a tree, no file of hickle 3, and no manager was left behind in a
writable file -/
structure FileOk (P : Nat → Prop) (s : Session) : Prop where
  tree : Tree s.store
  reg : RegInv P s.reg
  noV3 : NoV3 s.store
  ldr : s.ldr = false
  ref : s.writable = true → s.ref = false

/-- a new file -/
def newFile (reg : Registry) : Session := { store := [⟨[], [], .group []⟩], writable := true, reg := reg }

variable {P : Nat → Prop}

theorem newFile_ok {reg : Registry} (h : RegInv P reg) : FileOk P (newFile reg) := by
  refine ⟨⟨⟨[], rfl⟩, ?_, ?_, ?_⟩, h, rfl, rfl, fun _ => rfl⟩
  · intro p ls hl e he
    obtain ⟨nd, h1, h2⟩ := Store.links_eq hl
    rcases p with _ | p
    · simp [newFile] at h1; subst h1; simp at h2; subst h2; simp at he
    · simp [newFile] at h1
  · intro p p' ls ls' hl hl' e he
    obtain ⟨nd, h1, h2⟩ := Store.links_eq hl
    rcases p with _ | p
    · simp [newFile] at h1; subst h1; simp at h2; subst h2; simp at he
    · simp [newFile] at h1
  · intro p ls hl
    obtain ⟨nd, h1, h2⟩ := Store.links_eq hl
    rcases p with _ | p
    · simp [newFile] at h1; subst h1; simp at h2; subst h2; exact .nil
    · simp [newFile] at h1

/-- what a call changes in the file -/
theorem Op.chg {o : Op} {s : Session} (ho : o.ok P) (hs : FileOk P s) :
    FileOk P (o.run s) ∧ ∃ q, (∀ q', o.path = some q' → q = q') ∧ (o.path = none → q = []) ∧ (Chg q s.store (o.run s).store ∧ (o.path = none → (o.run s).store = s.store)) := by
  cases o with
  | dump a =>
    have h := dumpTop_post (a := a) ho.1 ho.2 hs.reg
    refine ⟨⟨h.chg.tree hs.tree, h.reg, hs.noV3.keep hs.tree h.chg, h.ldr.trans hs.ldr, ?_⟩, a.path, by simp [Op.path], by simp [Op.path], h.chg, by simp [Op.path]⟩
    intro hw
    exact h.ref.trans (hs.ref (h.writable.symm.trans hw))
  | load a =>
    obtain ⟨r', h, h1, h2⟩ := loadTop_post (a := a) ho.1 ho.2 hs.reg
    refine ⟨⟨h.chg.tree hs.tree, h.reg, hs.noV3.keep hs.tree h.chg, h.ldr.trans hs.ldr, ?_⟩, a.path, by simp [Op.path], by simp [Op.path], h.chg, by simp [Op.path]⟩
    intro hw
    have hw' := h.writable.symm.trans hw
    rw [← hs.ref hw', ← h1 hw']; exact h.ref
  | reopen w =>
    exact ⟨⟨hs.tree, hs.reg, hs.noV3, rfl, fun _ => rfl⟩, [], by simp [Op.path], fun _ => rfl, .refl, fun _ => rfl⟩

theorem FileOk.run {os : List Op} {s : Session} (ho : ∀ o ∈ os, o.ok P) (hs : FileOk P s) : FileOk P (runOps os s) := by
  induction os generalizing s with
  | nil => exact hs
  | cons o os ih => exact ih (fun o' h => ho o' (by simp [h])) (Op.chg (ho o (by simp)) hs).1

/-- a dump survives every history of calls with paths that do not lead into it -/
theorem Stored.run {env : Env} {p : List PyStr} {H0 : Heap} {a : Addr} {os : List Op} {s : Session} (ho : ∀ o ∈ os, o.ok P) (hs : FileOk P s)
    (hp : ∀ o ∈ os, ∀ q, o.path = some q → Avoids p q) (h : Stored env s.store p H0 a) : Stored env (runOps os s).store p H0 a := by
  induction os generalizing s with
  | nil => exact h
  | cons o os ih =>
    obtain ⟨h1, q, h2, h3, h4, h5⟩ := Op.chg (ho o (by simp)) hs
    refine ih (fun o' h => ho o' (by simp [h])) h1 (fun o' h => hp o' (by simp [h])) ?_
    cases hpth : o.path with
    | none => rw [h5 hpth]; exact h
    | some q' =>
      have hq := h2 q' hpth
      subst hq
      exact h.keep hs.tree h4 (hp o (by simp) q hpth)

end Verif
