import Verif.Hickle.Registry
import Verif.Py.Hoare
/-!
# Computations in single steps

The other models run a call of hickle in one go.  Here a call is a tree of steps, so that something can come between them:
an exception raised by HDF5 or by a signal handler, or a step of another thread.  A step is one call of h5py, one statement on
hickle's own data, or one `load_loader`.
-/
namespace Verif

/-- A computation on a state of type `σ`.  `act io x k` does `x` and goes on with `k` for its outcome; `io` tells whether `x` is a call of
h5py, which fails when the disk is full, the device is gone and so on.  `look m c base k` asks the loader registry for class
`c` (`loader.load_loader(c, base)`, lookup.py:1131-1315; a dump gives no base type). -/
inductive Prog (σ : Type) (α : Type) : Type 1 where
  | ret (r : Except PyErr α)
  | act {β : Type} (io : Bool) (x : M σ β) (k : Except PyErr β → Prog σ α)
  | look (m : Manager) (c : Cls) (base : Option String) (k : Except PyErr (Cls × Entry) → Prog σ α)

namespace Prog
variable {σ α β : Type}

/-- one after the other; an exception ends it -/
def bind : Prog σ α → (α → Prog σ β) → Prog σ β
  | .ret (.ok a), f => f a
  | .ret (.error e), _ => .ret (.error e)
  | .act io x k, f => .act io x fun r => (k r).bind f
  | .look m c b k, f => .look m c b fun r => (k r).bind f

instance : Monad (Prog σ) where
  pure a := .ret (.ok a)
  bind := bind

/-- `raise` -/
def raise (e : PyErr) : Prog σ α := .ret (.error e)
/-- a single step -/
def op (io : Bool) (x : M σ α) : Prog σ α := .act io x .ret
/-- the current state -/
def view : Prog σ σ := op false M.get
/-- ask the loader registry -/
def ask (m : Manager) (c : Cls) (base : Option String) : Prog σ (Cls × Entry) := .look m c base .ret
/-- `try`: the outcome as a value -/
def attempt : Prog σ α → Prog σ (Except PyErr α)
  | .ret r => .ret (.ok r)
  | .act io x k => .act io x fun r => (k r).attempt
  | .look m c b k => .look m c b fun r => (k r).attempt
/-- `for x in xs` -/
def forEach (f : α → Prog σ Unit) : List α → Prog σ Unit
  | [] => pure ()
  | x :: xs => do f x; forEach f xs
/-- `for x in xs`, with an accumulator -/
def foldEach (f : β → α → Prog σ β) : β → List α → Prog σ β
  | b, [] => pure b
  | b, x :: xs => do let b' ← f b x; foldEach f b' xs
/-- `with` / `try ... finally` -/
def finally' (x : Prog σ α) (fin : Prog σ Unit) : Prog σ α := do
  let r ← x.attempt
  fin
  .ret r

/-! ### running without anything in between -/

/-- how the registry answers -/
abbrev Lk (σ : Type) := Manager → Cls → Option String → M σ (Cls × Entry)

/-- all steps one after the other -/
def run (lk : Lk σ) : Prog σ α → M σ α
  | .ret r => fun s => (r, s)
  | .act _ x k => fun s => run lk (k (x s).1) (x s).2
  | .look m c b k => fun s => run lk (k (lk m c b s).1) (lk m c b s).2

variable {lk : Lk σ}

theorem run_bind (p : Prog σ α) (f : α → Prog σ β) : run lk (p >>= f) = run lk p >>= fun a => run lk (f a) := by
  show run lk (p.bind f) = _
  induction p with
  | ret r => cases r <;> rfl
  | act io x k ih => funext s; simp only [bind, run]; rw [ih]; rfl
  | look m c b k ih => funext s; simp only [bind, run]; rw [ih]; rfl

theorem run_pure (a : α) : run lk (pure a : Prog σ α) = pure a := rfl
theorem run_ret (r : Except PyErr α) : run lk (.ret r : Prog σ α) = M.ofExcept r := rfl
theorem run_raise (e : PyErr) : run lk (raise e : Prog σ α) = M.throw e := rfl
theorem run_op (io : Bool) (x : M σ α) : run lk (op io x) = x := rfl
theorem run_view : run lk (view : Prog σ σ) = M.get := rfl
theorem run_ask (m : Manager) (c : Cls) (b : Option String) : run lk (ask m c b : Prog σ _) = lk m c b := rfl

theorem run_attempt (p : Prog σ α) : run lk p.attempt = M.attempt (run lk p) := by
  induction p with
  | ret r => rfl
  | act io x k ih => funext s; simp only [attempt, run]; rw [ih]; rfl
  | look m c b k ih => funext s; simp only [attempt, run]; rw [ih]; rfl

theorem run_forEach (f : α → Prog σ Unit) (xs : List α) : run lk (forEach f xs) = M.forEach (fun x => run lk (f x)) xs := by
  induction xs with
  | nil => rfl
  | cons x xs ih => simp only [forEach, M.forEach, run_bind]; rw [ih]

theorem run_foldEach (f : β → α → Prog σ β) (xs : List α) : ∀ b, run lk (foldEach f b xs) = M.foldEach (fun b x => run lk (f b x)) b xs := by
  induction xs with
  | nil => intro b; rfl
  | cons x xs ih =>
    intro b
    simp only [foldEach, M.foldEach, run_bind]
    congr 1; funext b'
    exact ih b'

/-! ### running with exceptions in between -/

/-- what happens at a step: nothing unusual; an exception before it takes effect; an exception after it took effect -/
inductive Ev where
  | go
  | early (e : PyErr)
  | late (e : PyErr)
  deriving DecidableEq, Repr

/-- the outcome of a step -/
def strike (ev : Ev) (y : Except PyErr β × σ) (s : σ) : Except PyErr β × σ :=
  match ev with
  | .go => y
  | .early e => (.error e, s)
  | .late e => (.error e, y.2)

/-- the event of the next step, if it can be hit at all -/
def next (hit : Bool) (es : List Ev) : Ev × List Ev :=
  if hit then (match es with
    | [] => (.go, [])
    | ev :: es => (ev, es)) else (.go, es)

/-- Run with a list of events, one for each step that can be hit: only calls of h5py, or (`all`) every step.  When the list is used up
nothing unusual happens any more. -/
def runF (all : Bool) (lk : Lk σ) : Prog σ α → List Ev → M σ α
  | .ret r, _ => fun s => (r, s)
  | .act io x k, es => fun s =>
    let n := next (all || io) es
    let y := strike n.1 (x s) s
    runF all lk (k y.1) n.2 y.2
  | .look m c b k, es => fun s =>
    let n := next all es
    let y := strike n.1 (lk m c b s) s
    runF all lk (k y.1) n.2 y.2

theorem next_nil (hit : Bool) : next hit [] = (.go, []) := by cases hit <;> rfl

/-- without events it is the same as `run` -/
theorem runF_nil (all : Bool) (p : Prog σ α) : runF all lk p [] = run lk p := by
  induction p with
  | ret r => rfl
  | act io x k ih => funext s; simp only [runF, run, next_nil, strike]; rw [ih]
  | look m c b k ih => funext s; simp only [runF, run, next_nil, strike]; rw [ih]

/-- what holds after every run, whatever the events -/
def wp (all : Bool) (lk : Lk σ) : Prog σ α → (Except PyErr α → σ → Prop) → σ → Prop
  | .ret r, Q, s => Q r s
  | .act io x k, Q, s => ∀ ev, ((all || io) = false → ev = .go) → wp all lk (k (strike ev (x s) s).1) Q (strike ev (x s) s).2
  | .look m c b k, Q, s => ∀ ev, (all = false → ev = .go) → wp all lk (k (strike ev (lk m c b s) s).1) Q (strike ev (lk m c b s) s).2

theorem wp_sound {all : Bool} (p : Prog σ α) {Q : Except PyErr α → σ → Prop} : ∀ {s : σ} (_ : wp all lk p Q s) (es : List Ev),
    Q (runF all lk p es s).1 (runF all lk p es s).2 := by
  have go : ∀ (hit : Bool) (es : List Ev), hit = false → (next hit es).1 = .go := fun hit es h => by subst h; rfl
  induction p with
  | ret r => exact fun h _ => h
  | act io x k ih => exact fun h es => ih _ (h _ (go _ es)) _
  | look m c b k ih => exact fun h es => ih _ (h _ (go _ es)) _

variable {all : Bool}

theorem wp_mono {p : Prog σ α} {Q Q' : Except PyErr α → σ → Prop} (hq : ∀ r s, Q r s → Q' r s) : ∀ {s : σ}, wp all lk p Q s → wp all lk p Q' s := by
  induction p with
  | ret r => exact fun h => hq _ _ h
  | act io x k ih => exact fun h ev he => ih _ (h ev he)
  | look m c b k ih => exact fun h ev he => ih _ (h ev he)

/-- what has to hold after the first part -/
def Then (R : α → σ → Prop) (Q : Except PyErr β → σ → Prop) : Except PyErr α → σ → Prop
  | .ok a, s => R a s
  | .error e, s => Q (.error e) s

theorem wp_true (p : Prog σ α) : ∀ s : σ, wp all lk p (fun _ _ => True) s := by
  induction p with
  | ret r => exact fun _ => trivial
  | act io x k ih => exact fun s ev _ => ih _ _
  | look m c b k ih => exact fun s ev _ => ih _ _

theorem wp_bind {p : Prog σ α} {f : α → Prog σ β} {Q : Except PyErr β → σ → Prop} :
    ∀ {s : σ}, wp all lk p (Then (fun a s => wp all lk (f a) Q s) Q) s → wp all lk (p >>= f) Q s := by
  show ∀ {s : σ}, _ → wp all lk (p.bind f) Q s
  induction p with
  | ret r => cases r <;> exact fun h => h
  | act io x k ih => exact fun h ev he => ih _ (h ev he)
  | look m c b k ih => exact fun h ev he => ih _ (h ev he)

theorem wp_attempt {p : Prog σ α} {Q : Except PyErr (Except PyErr α) → σ → Prop} : ∀ {s : σ}, wp all lk p (fun r s => Q (.ok r) s) s → wp all lk p.attempt Q s := by
  induction p with
  | ret r => exact fun h => h
  | act io x k ih => exact fun h ev he => ih _ (h ev he)
  | look m c b k ih => exact fun h ev he => ih _ (h ev he)

/-- the program keeps an invariant whatever the events; its result satisfies `Q` -/
def Safe (all : Bool) (lk : Lk σ) (I : σ → Prop) (p : Prog σ α) (Q : α → Prop := fun _ => True) : Prop :=
  ∀ s, I s → wp all lk p (fun r s' => I s' ∧ ∀ a, r = .ok a → Q a) s

namespace Safe
variable {I : σ → Prop}

theorem bind {p : Prog σ α} {f : α → Prog σ β} {Q : α → Prop} {Q' : β → Prop} (hp : Safe all lk I p Q) (hf : ∀ a, Q a → Safe all lk I (f a) Q') :
    Safe all lk I (p >>= f) Q' := by
  intro s hs
  refine wp_bind (wp_mono ?_ (hp s hs))
  intro r s' h
  cases r with
  | ok a => exact hf a (h.2 a rfl) s' h.1
  | error e => exact ⟨h.1, by simp⟩

theorem pure {Q : α → Prop} {a : α} (h : Q a) : Safe all lk I (pure a : Prog σ α) Q := fun s hs => ⟨hs, fun b hb => by cases hb; exact h⟩
theorem ret {Q : α → Prop} {r : Except PyErr α} (h : ∀ a, r = .ok a → Q a) : Safe all lk I (.ret r : Prog σ α) Q := fun s hs => ⟨hs, h⟩
theorem throw {Q : α → Prop} (e : PyErr) : Safe all lk I (raise e : Prog σ α) Q := fun s hs => ⟨hs, by simp⟩

theorem op {io : Bool} {x : M σ α} {Q : α → Prop} (h : Keeps I x Q) : Safe all lk I (op io x) Q := by
  intro s hs ev _
  cases ev with
  | go => exact h s hs
  | early e => exact ⟨hs, by simp [strike]⟩
  | late e => exact ⟨(h s hs).1, by simp [strike]⟩

theorem view : Safe all lk I (view : Prog σ σ) I := op Keeps.get

theorem ask {m : Manager} {c : Cls} {b : Option String} (h : Keeps I (lk m c b)) : Safe all lk I (ask m c b : Prog σ _) := by
  intro s hs ev _
  cases ev with
  | go => exact h s hs
  | early e => exact ⟨hs, by simp [strike]⟩
  | late e => exact ⟨(h s hs).1, by simp [strike]⟩

theorem attempt {p : Prog σ α} {Q : α → Prop} (h : Safe all lk I p Q) : Safe all lk I p.attempt (fun r => ∀ a, r = .ok a → Q a) := fun s hs =>
  wp_attempt (wp_mono (fun r s' h => ⟨h.1, fun b hb a ha => by cases hb; exact h.2 a ha⟩) (h s hs))

theorem forEach {f : α → Prog σ Unit} (xs : List α) (h : ∀ x ∈ xs, Safe all lk I (f x)) : Safe all lk I (forEach f xs) := by
  induction xs with
  | nil => exact pure trivial
  | cons x xs ih => exact bind (h x (by simp)) fun _ _ => ih fun y hy => h y (by simp [hy])

theorem foldEach {f : β → α → Prog σ β} (xs : List α) (h : ∀ b, ∀ x ∈ xs, Safe all lk I (f b x)) : ∀ b, Safe all lk I (foldEach f b xs) := by
  induction xs with
  | nil => exact fun b => pure trivial
  | cons x xs ih => exact fun b => bind (h b x (by simp)) fun b' _ => ih (fun b y hy => h b y (by simp [hy])) b'

theorem finally' {p : Prog σ α} {fin : Prog σ Unit} (h : Safe all lk I p) (hf : Safe all lk I fin) : Safe all lk I (finally' p fin) :=
  bind h.attempt fun _ _ => bind hf fun _ _ => ret fun _ _ => trivial

end Safe
end Prog
end Verif
