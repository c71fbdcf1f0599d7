import Verif.Hickle.CustomLoad
/-!
# How much work dump and load do

`loadW` is `load` (of `Custom.lean`) with two counters that nothing depends on: the calls of `_load`, and the nodes whose
container has been converted to an object.
-/
namespace Verif.Custom

variable {C D V P K : Type}

/-- the calls of `_load` so far, and the nodes that were made into objects, the last one first -/
structure Work where
  calls : Nat
  made : List Nat

/-- one more call -/
def Work.call (w : Work) : Work := ⟨w.calls + 1, w.made⟩

/-- one more object -/
def Work.make (w : Work) (n : Nat) : Work := ⟨w.calls, n :: w.made⟩

/-- `items` with counters -/
def itemsW (file : File C V P) (r : Restorer C D V P K) (load : Nat → LState C D → Work → Except PyErr (Nat × LState C D × Work)) :
    List (String × Nat) → K → LState C D → Work → Except PyErr (K × LState C D × Work)
  | [], k, s, w => .ok (k, s, w)
  | (name, m) :: l, k, s, w =>
    match load m s w with
    | .error e => .error e
    | .ok (x, s', w') =>
      match file[m]? with
      | none => .error .unmodelled
      | some nd =>
        match r.append k name x nd.kind.attrs with
        | .error e => .error e
        | .ok k' => itemsW file r load l k' s' w'

/-- `_load` (hickle.py:402-466) with counters -/
def loadW (L : Loaders C D V P K) (file : File C V P) (order : List (String × Nat) → List (String × Nat)) :
    Nat → Nat → LState C D → Work → Except PyErr (Nat × LState C D × Work)
  | 0, _, _, _ => .error .recursionError
  | fuel + 1, n, s, w =>
    match Assoc.get? s.memo n with
    | some x => .ok (x, s, w.call)                                                         -- 429-432
    | none =>
      match file[n]? with
      | none => .error .unmodelled
      | some ⟨_, _, .ref t _⟩ => loadW L file order fuel t s w.call
      | some ⟨_, _, .obj cls base p attrs⟩ =>
        match itemsW file (L.restorer base) (loadW L file order fuel) (order (links file n)) ((L.restorer base).init p attrs (L.clsOf cls)) s w.call with
        | .error e => .error e
        | .ok (k, s1, w1) =>
          match (L.restorer base).convert k s1.heap with
          | .error e => .error e
          | .ok (x, h) =>
            .ok (x, ⟨h, if (L.entry (L.clsOf cls)).memoise then Assoc.put s1.memo n x else s1.memo⟩, w1.make n)

/-- without the counters -/
def forget {α : Type} : Except PyErr (α × LState C D × Work) → Except PyErr (α × LState C D)
  | .ok (x, s, _) => .ok (x, s)
  | .error e => .error e

theorem itemsW_forget {file : File C V P} {r : Restorer C D V P K} {ld : Nat → LState C D → Except PyErr (Nat × LState C D)}
    {ldw : Nat → LState C D → Work → Except PyErr (Nat × LState C D × Work)} (h : ∀ n s w, forget (ldw n s w) = ld n s) (l : List (String × Nat)) (k : K) (s : LState C D) (w : Work) :
    forget (itemsW file r ldw l k s w) = items file r ld l k s := by
  induction l generalizing k s w with
  | nil => rfl
  | cons p l ih =>
    obtain ⟨name, m⟩ := p
    simp only [itemsW, items]
    rw [← h m s w]
    cases ldw m s w with
    | error e => rfl
    | ok v =>
      obtain ⟨x, s', w'⟩ := v
      simp only [forget]
      cases file[m]? with
      | none => rfl
      | some nd =>
        simp only
        cases r.append k name x nd.kind.attrs with
        | error e => rfl
        | ok k' => exact ih _ _ _

/-- the counters change nothing -/
theorem loadW_forget (L : Loaders C D V P K) (file : File C V P) (order : List (String × Nat) → List (String × Nat)) (fuel n : Nat) (s : LState C D) (w : Work) :
    forget (loadW L file order fuel n s w) = load L file order fuel n s := by
  induction fuel generalizing n s w with
  | zero => rfl
  | succ fuel ih =>
    simp only [loadW, load]
    cases Assoc.get? s.memo n with
    | some x => rfl
    | none =>
      simp only
      cases file[n]? with
      | none => rfl
      | some nd =>
        obtain ⟨pa, na, kd⟩ := nd
        cases kd with
        | ref t at' => exact ih _ _ _
        | obj cls base p attrs =>
          simp only
          rw [← itemsW_forget ih _ _ _ w.call]
          cases itemsW file (L.restorer base) (loadW L file order fuel) (order (links file n)) ((L.restorer base).init p attrs (L.clsOf cls)) s w.call with
          | error e => rfl
          | ok v =>
            obtain ⟨k, s1, w1⟩ := v
            simp only [forget]
            cases (L.restorer base).convert k s1.heap with
            | error e => rfl
            | ok v => rfl

/-! ### calls -/

/-- calls that start at a node: one more for a reference -/
def weight (file : File C V P) (n : Nat) : Nat :=
  match file[n]? with
  | some ⟨_, _, .ref _ _⟩ => 2
  | _ => 1

/-- calls made for the members of a group -/
def below (file : File C V P) (n : Nat) : Nat := ((links file n).map fun l => weight file l.2).sum

/-- references go to objects -/
def RefsOk (file : File C V P) : Prop :=
  ∀ (n : Nat) (pa : Option Nat) (na : String) (t : Nat) (at' : Attrs V), file[n]? = some ⟨pa, na, .ref t at'⟩ →
    ∃ (pa : Option Nat) (na : String) (cls : Option C) (base : String) (p : P) (attrs : Attrs V), file[t]? = some ⟨pa, na, .obj cls base p attrs⟩

/-- calls made for the members of some groups -/
def total (file : File C V P) (l : List Nat) : Nat := (l.map (below file)).sum

theorem total_append (file : File C V P) (l l' : List Nat) : total file (l ++ l') = total file l + total file l' := by
  simp [total]

theorem sum_perm {l l' : List Nat} (h : l.Perm l') : l.sum = l'.sum := by
  induction h with
  | nil => rfl
  | cons x _ ih => simp [ih]
  | swap x y l => simp; omega
  | trans _ _ h1 h2 => rw [h1, h2]

theorem itemsW_calls {file : File C V P} {r : Restorer C D V P K} {ldw : Nat → LState C D → Work → Except PyErr (Nat × LState C D × Work)}
    (h : ∀ n s w x s' w', ldw n s w = .ok (x, s', w') → ∃ new, w'.made = new ++ w.made ∧ w'.calls ≤ w.calls + weight file n + total file new)
    (l : List (String × Nat)) (k : K) (s : LState C D) (w : Work) {k' s' w'} (hl : itemsW file r ldw l k s w = .ok (k', s', w')) :
    ∃ new, w'.made = new ++ w.made ∧ w'.calls ≤ w.calls + (l.map fun l => weight file l.2).sum + total file new := by
  induction l generalizing k s w with
  | nil =>
    simp [itemsW] at hl
    obtain ⟨_, _, rfl⟩ := hl
    exact ⟨[], rfl, by simp⟩
  | cons p l ih =>
    obtain ⟨name, m⟩ := p
    simp only [itemsW] at hl
    split at hl
    · simp at hl
    · next x s1 w1 h1 =>
      split at hl
      · simp at hl
      · split at hl
        · simp at hl
        · obtain ⟨new1, e1, e2⟩ := h _ _ _ _ _ _ h1
          obtain ⟨new2, f1, f2⟩ := ih _ _ _ hl
          refine ⟨new2 ++ new1, by rw [f1, e1]; simp, ?_⟩
          rw [total_append]
          simp only [List.map_cons, List.sum_cons]
          omega

theorem loadW_calls {L : Loaders C D V P K} {file : File C V P} (hr : RefsOk file) {order : List (String × Nat) → List (String × Nat)} (hord : ∀ l, (order l).Perm l) (fuel : Nat) :
    ∀ n s w x s' w', loadW L file order fuel n s w = .ok (x, s', w') → ∃ new, w'.made = new ++ w.made ∧ w'.calls ≤ w.calls + weight file n + total file new := by
  induction fuel with
  | zero => intro n s w x s' w' h; simp [loadW] at h
  | succ fuel ih =>
    intro n s w x s' w' h
    simp only [loadW] at h
    split at h
    · simp at h
      obtain ⟨_, _, rfl⟩ := h
      refine ⟨[], rfl, ?_⟩
      have : 1 ≤ weight file n := by unfold weight; split <;> omega
      simp [Work.call, total]; omega
    · split at h
      · simp at h
      · next pa na t at' hn =>
        obtain ⟨new, e1, e2⟩ := ih _ _ _ _ _ _ h
        obtain ⟨_, _, _, _, _, _, ht⟩ := hr _ _ _ _ _ hn
        refine ⟨new, e1, ?_⟩
        have w1 : weight file t = 1 := by simp [weight, ht]
        have w2 : weight file n = 2 := by simp [weight, hn]
        simp only [Work.call] at e2
        omega
      · next pa na cls base p attrs hn =>
        split at h
        · simp at h
        · next k s1 w1 h1 =>
          split at h
          · simp at h
          · next x' h' hc =>
            simp only [Except.ok.injEq, Prod.mk.injEq] at h
            obtain ⟨_, _, rfl⟩ := h
            obtain ⟨new, e1, e2⟩ := itemsW_calls ih _ _ _ _ h1
            refine ⟨n :: new, by simp [Work.make, e1, Work.call], ?_⟩
            have w2 : weight file n = 1 := by simp [weight, hn]
            have : ((order (links file n)).map fun l => weight file l.2).sum = below file n := sum_perm ((hord _).map _)
            simp only [Work.make, Work.call, total, List.map_cons, List.sum_cons] at e2 ⊢
            omega

/-- weights of the nodes in groups -/
def sumW (w : Nat → Nat) : File C V P → Nat → Nat
  | [], _ => 0
  | nd :: l, i => (if nd.parent = none then 0 else w i) + sumW w l (i + 1)

theorem sum_ite {l : List Nat} (hn : l.Nodup) (p : Option Nat) (c : Nat) (f : Nat → Nat) :
    (l.map fun g => (if p = some g then c else 0) + f g).sum ≤ (if p = none then 0 else c) + (l.map f).sum := by
  induction l with
  | nil => simp
  | cons g l ih =>
    obtain ⟨h1, h2⟩ := List.nodup_cons.1 hn
    have ih := ih h2
    simp only [List.map_cons, List.sum_cons]
    by_cases hp : p = some g
    · subst hp
      have : (l.map fun g' => (if some g = some g' then c else 0) + f g') = l.map f := by
        refine List.map_congr_left fun g' hg => ?_
        rw [if_neg]
        · simp
        · intro e; simp at e; subst e; exact h1 hg
      rw [this]
      simp; omega
    · rw [if_neg hp]; omega

theorem sum_members (w : Nat → Nat) {l : List Nat} (hn : l.Nodup) (f : File C V P) (i : Nat) :
    (l.map fun g => ((members g f i).map fun p => w p.2).sum).sum ≤ sumW w f i := by
  induction f generalizing i with
  | nil => simp only [members, sumW, List.map_nil, List.sum_nil]; induction l with
    | nil => simp
    | cons g l ih => simp; exact Nat.le_zero.1 (ih (List.nodup_cons.1 hn).2)
  | cons nd f ih =>
    have h := sum_ite hn nd.parent (w i) fun g => ((members g f (i + 1)).map fun p => w p.2).sum
    have e : ∀ g, ((members g (nd :: f) i).map fun p => w p.2).sum = (if nd.parent = some g then w i else 0) + ((members g f (i + 1)).map fun p => w p.2).sum := by
      intro g
      simp only [members]
      split <;> simp
    simp only [e, sumW]
    have := ih (i + 1)
    omega

/-- number of references in a file -/
def refs (file : File C V P) : Nat := file.countP fun nd => match nd.kind with | .ref .. => true | _ => false

theorem sumW_le (w : Nat → Nat) (f : File C V P) (i : Nat) (h : ∀ (j : Nat) (nd : Node C V P), f[j]? = some nd → w (i + j) ≤ 1 + (match nd.kind with | .ref .. => 1 | _ => 0)) :
    sumW w f i ≤ f.length + refs f := by
  induction f generalizing i with
  | nil => simp [sumW]
  | cons nd f ih =>
    have h0 := h 0 nd rfl
    have := ih (i + 1) fun j nd' hj => by have := h (j + 1) nd' (by simpa using hj); rw [show i + 1 + j = i + (j + 1) by omega]; exact this
    simp only [sumW, refs, List.countP_cons, List.length_cons] at this h0 ⊢
    cases hk : nd.kind with
    | obj _ _ _ _ => simp [hk] at h0 ⊢; split <;> omega
    | ref _ _ => simp [hk] at h0 ⊢; split <;> omega

/-- calls for the members of different groups -/
theorem total_le {file : File C V P} {l : List Nat} (hn : l.Nodup) {nd : Node C V P} {f : File C V P} (hf : file = nd :: f) (hp : nd.parent = none) :
    total file l ≤ f.length + refs f := by
  have h := sum_members (weight file) hn file 0
  unfold total below links
  refine Nat.le_trans h ?_
  subst hf
  simp only [sumW, hp, if_true, Nat.zero_add]
  refine sumW_le _ _ _ ?_
  intro j nd' hj
  have : (nd :: f)[1 + j]? = some nd' := by rw [Nat.add_comm]; simpa using hj
  obtain ⟨pa, na, kd⟩ := nd'
  cases kd <;> simp [weight, this]

/-! ### references go to objects that load remembers -/

/-- load remembers the object of this node -/
def Kept (L : Loaders C D V P K) (file : File C V P) (n : Nat) : Prop :=
  ∃ (pa : Option Nat) (na : String) (cls : Option C) (base : String) (p : P) (attrs : Attrs V),
    file[n]? = some ⟨pa, na, .obj cls base p attrs⟩ ∧ (L.entry (L.clsOf cls)).memoise = true

theorem Kept.mono {L : Loaders C D V P K} {f f' : File C V P} (hf : f <+: f') {n : Nat} (h : Kept L f n) : Kept L f' n := by
  obtain ⟨pa, na, cls, base, p, attrs, h1, h2⟩ := h
  exact ⟨pa, na, cls, base, p, attrs, at_prefix hf h1, h2⟩

/-- what is remembered and what references point to -/
structure Refs (L : Loaders C D V P K) (s : DState C D V P) : Prop where
  memo : ∀ y n, Assoc.get? s.memo y = some n → Kept L s.file n
  refs : ∀ (n : Nat) (pa : Option Nat) (na : String) (t : Nat) (at' : Attrs V), s.file[n]? = some ⟨pa, na, .ref t at'⟩ → Kept L s.file t

theorem Refs.push {L : Loaders C D V P K} {s : DState C D V P} (h : Refs L s) {nd : Node C V P} {hp : Heap C D} {memo : List (Nat × Nat)}
    (hr : ∀ t at', nd.kind = .ref t at' → Kept L s.file t)
    (hm : ∀ y n, Assoc.get? memo y = some n → Kept L (s.file ++ [nd]) n) : Refs L ⟨hp, s.file ++ [nd], memo⟩ := by
  refine ⟨hm, ?_⟩
  intro n pa na t at' hn
  simp only at hn ⊢
  rcases Nat.lt_or_ge n s.file.length with hlt | hge
  · rw [List.getElem?_append_left hlt] at hn
    exact (h.refs n pa na t at' hn).mono ⟨_, rfl⟩
  · rw [List.getElem?_append_right hge] at hn
    have := List.mem_of_getElem? hn
    simp at this
    subst this
    exact (hr t at' rfl).mono ⟨_, rfl⟩

theorem each_refs {α : Type} {L : Loaders C D V P K} {f : α → DState C D V P → Except PyErr (DState C D V P)} (hf : ∀ x s s', f x s = .ok s' → Refs L s → Refs L s') (l : List α)
    (s s' : DState C D V P) (h : each f l s = .ok s') (hs : Refs L s) : Refs L s' := by
  induction l generalizing s with
  | nil => simp [each] at h; subst h; exact hs
  | cons x l ih =>
    simp only [each] at h
    split at h
    · next s1 h1 => exact ih _ h (hf _ _ _ h1 hs)
    · simp at h

theorem remember_refs {L : Loaders C D V P K} {s : DState C D V P} (h : Refs L s) {nd : Node C V P} {hp : Heap C D} (hr : ∀ t at', nd.kind ≠ .ref t at') {memoise : Bool} {a : Nat}
    (hk : memoise = true → Kept L (s.file ++ [nd]) s.file.length) : Refs L (remember ⟨hp, s.file ++ [nd], s.memo⟩ memoise a s.file.length) := by
  have e : remember ⟨hp, s.file ++ [nd], s.memo⟩ memoise a s.file.length = ⟨hp, s.file ++ [nd], if memoise then Assoc.put s.memo a s.file.length else s.memo⟩ := by
    unfold remember; split <;> rfl
  rw [e]
  refine h.push (fun t at' e => (hr t at' e).elim) ?_
  intro y n hy
  split at hy
  · next hm =>
    rw [Assoc.get?_put] at hy
    split at hy
    · simp at hy; subst hy; exact hk hm
    · exact (h.memo _ _ hy).mono ⟨_, rfl⟩
  · exact (h.memo _ _ hy).mono ⟨_, rfl⟩

theorem dump_refs {L : Loaders C D V P K} (hobj : (L.entry L.object).memoise = true) (fuel : Nat) : ∀ (a : Nat) (parent : Option Nat) (name : String) (attrs : Attrs V) (s s' : DState C D V P),
    dump L fuel a parent name attrs s = .ok s' → Refs L s → Refs L s' := by
  induction fuel with
  | zero => intro a parent name attrs s s' h; simp [dump] at h
  | succ fuel ih =>
    intro a parent name attrs s s' h hs
    simp only [dump] at h
    split at h
    · next n hm =>
      have e := push_ok h
      subst e
      refine hs.push ?_ fun y n h => (hs.memo y n h).mono ⟨_, rfl⟩
      intro t at' e
      simp at e
      obtain ⟨rfl, _⟩ := e
      exact hs.memo _ _ hm
    · split at h
      · simp at h
      · next o ho =>
        split at h
        · next m hcr =>
          split at h
          · simp at h
          · next s1 hp =>
            have e := push_ok hp
            subst e
            refine each_refs (fun x s s' h => ih _ _ _ _ s s' h) _ _ _ h ?_
            exact remember_refs hs (by simp) fun hm => ⟨_, _, some o.cls, _, _, _, by simp; exact ⟨rfl, rfl, rfl, rfl, rfl⟩, hm⟩
        · split at h
          · simp at h
          · split at h
            · simp at h
            · next s1 hp =>
              have e := push_ok hp
              subst e
              simp only [Except.ok.injEq] at h
              subst h
              exact remember_refs hs (by simp) fun hm => ⟨_, _, none, _, _, _, by simp; exact ⟨rfl, rfl, rfl, rfl, rfl⟩, hobj⟩
        · simp at h

/-! ### each node is made into an object once -/

theorem members_mem {g : Nat} {f : File C V P} {i : Nat} {p : String × Nat} (h : p ∈ members g f i) : ∃ j nd, p.2 = i + j ∧ f[j]? = some nd ∧ nd.parent = some g := by
  induction f generalizing i with
  | nil => simp [members] at h
  | cons nd f ih =>
    simp only [members] at h
    have tail : p ∈ members g f (i + 1) → ∃ j nd', p.2 = i + j ∧ (nd :: f)[j]? = some nd' ∧ nd'.parent = some g := by
      intro h
      obtain ⟨j, nd', h1, h2, h3⟩ := ih h
      exact ⟨j + 1, nd', by omega, by simpa using h2, h3⟩
    split at h
    · next hp =>
      rcases List.mem_cons.1 h with rfl | h
      · exact ⟨0, nd, rfl, rfl, hp⟩
      · exact tail h
    · exact tail h

theorem members_nodup (g : Nat) (f : File C V P) (i : Nat) : ((members g f i).map (·.2)).Nodup := by
  induction f generalizing i with
  | nil => simp [members]
  | cons nd f ih =>
    simp only [members]
    split
    · simp only [List.map_cons, List.nodup_cons]
      refine ⟨?_, ih _⟩
      intro h
      obtain ⟨p, hp, e⟩ := List.mem_map.1 h
      obtain ⟨j, _, h1, _⟩ := members_mem hp
      omega
    · exact ih _

theorem links_mem {file : File C V P} {g : Nat} {p : String × Nat} (h : p ∈ links file g) : ∃ nd, file[p.2]? = some nd ∧ nd.parent = some g := by
  obtain ⟨j, nd, h1, h2, h3⟩ := members_mem h
  exact ⟨nd, by rw [h1]; simpa using h2, h3⟩

/-- the group of a node -/
def parentOf (file : File C V P) (n : Nat) : Option Nat := file[n]?.bind (·.parent)

/-- What is known between two calls; `act` are the groups whose members are being loaded.  An object that was made and is not remembered belongs to a group
that was made, or is in `act`. -/
structure Once (L : Loaders C D V P K) (file : File C V P) (W : Nat → Nat → Prop) (act : List Nat) (s : LState C D) (w : Work) : Prop where
  nodup : w.made.Nodup
  group : ∀ m ∈ w.made, Assoc.get? s.memo m = none → ∀ g, parentOf file m = some g → g ∈ w.made ∨ g ∈ act
  kept : ∀ m ∈ w.made, Kept L file m → Assoc.get? s.memo m ≠ none
  memo : ∀ m v, Assoc.get? s.memo m = some v → ∃ z, W m z

/-- what a call for node `n` does -/
structure OStep (L : Loaders C D V P K) (Hf : Heap C D) (file : File C V P) (W : Nat → Nat → Prop) (k : Nat) (act : List Nat) (top : Nat → Prop) (s s' : LState C D) (w w' : Work) (new : List Nat) : Prop where
  made : w'.made = new ++ w.made
  small : ∀ m ∈ new, ∃ z, W m z ∧ Deep L Hf k z
  inside : ∀ m ∈ new, Assoc.get? s'.memo m = none → top m ∨ ∃ g ∈ new, parentOf file m = some g
  keep : ∀ m v, Assoc.get? s.memo m = some v → Assoc.get? s'.memo m = some v
  memoNew : ∀ m v, Assoc.get? s'.memo m = some v → Assoc.get? s.memo m = some v ∨ ∃ z, W m z ∧ Deep L Hf k z
  once : Once L file W act s' w'

theorem OStep.up {L : Loaders C D V P K} {Hf : Heap C D} {file : File C V P} {W : Nat → Nat → Prop} {k : Nat} {act : List Nat} {top : Nat → Prop} {s s' : LState C D} {w w' : Work} {new : List Nat}
    (h : OStep L Hf file W k act top s s' w w' new) : OStep L Hf file W (k + 1) act top s s' w w' new :=
  { h with
    small := fun m hm => (h.small m hm).imp fun _ h => ⟨h.1, h.2.succ⟩
    memoNew := fun m v hm => (h.memoNew m v hm).imp id fun ⟨z, h1, h2⟩ => ⟨z, h1, h2.succ⟩ }

/-- the loop over the members of a group `n` that is not yet made and is in `act` -/
theorem itemsW_once {L : Loaders C D V P K} {shares : C → Prop} {Hf : Heap C D} {file : File C V P} {W : Nat → Nat → Prop} (hW : Whole L shares Hf file W)
    (hrefs : ∀ (n : Nat) (pa : Option Nat) (na : String) (t : Nat) (at' : Attrs V), file[n]? = some ⟨pa, na, .ref t at'⟩ → Kept L file t)
    {order : List (String × Nat) → List (String × Nat)} {k f n : Nat} {act : List Nat} (hact : ∀ g ∈ act, ∃ z, W g z ∧ ¬ Deep L Hf k z) (hn : n ∈ act)
    (ih : ∀ (f n y : Nat) (s s' : LState C D) (w w' : Work) (x : Nat), loadW L file order f n s w = .ok (x, s', w') → W n y → Deep L Hf k y → Once L file W act s w →
      (Assoc.get? s.memo n = none → n ∉ w.made) → (Kept L file n ∨ ∀ g, parentOf file n = some g → g ∈ act) → ∃ new, OStep L Hf file W k act (· = n) s s' w w' new)
    (r : Restorer C D V P K) (ls : List (String × Nat)) (subs : List (Sub V)) (hls : All2 (Child file W) ls subs) (hdeep : ∀ sub ∈ subs, Deep L Hf k sub.addr)
    (hpar : ∀ l ∈ ls, parentOf file l.2 = some n) (hnd : (ls.map (·.2)).Nodup)
    (s s' : LState C D) (w w' : Work) (k0 k1 : K) (hO : Once L file W act s w) (hpre : ∀ l ∈ ls, Assoc.get? s.memo l.2 = none → l.2 ∉ w.made)
    (h : itemsW file r (loadW L file order f) ls k0 s w = .ok (k1, s', w')) :
    ∃ new, OStep L Hf file W k act (fun m => parentOf file m = some n) s s' w w' new := by
  induction hls generalizing s w k0 with
  | nil =>
    simp [itemsW] at h
    obtain ⟨rfl, rfl, rfl⟩ := h
    exact ⟨[], rfl, by simp, by simp, fun _ _ h => h, fun _ _ h => .inl h, hO⟩
  | @cons l sub ls subs hc _ ihl =>
    obtain ⟨name, m⟩ := l
    obtain ⟨hname, nd, hnd', hag, hch⟩ := hc
    simp only at hname hnd' hch
    simp only [itemsW] at h
    split at h
    · simp at h
    · next x s1 w1 h1 =>
      have hone : ∃ new, OStep L Hf file W k act (· = m) s s1 w w1 new := by
        rcases hch with hch | ⟨t, at', hk, hch⟩
        · exact ih f m sub.addr s s1 w w1 x h1 hch (hdeep sub (by simp)) hO (hpre (name, m) (by simp)) (.inr fun g hg => by
            have := hpar (name, m) (by simp)
            simp only [hg, Option.some.injEq] at this
            subst this; exact hn)
        · cases f with
          | zero => simp [loadW] at h1
          | succ f =>
            obtain ⟨pa, na, kd⟩ := nd
            simp only at hk
            subst hk
            have hm : Assoc.get? s.memo m = none := by
              cases hm : Assoc.get? s.memo m with
              | none => rfl
              | some v =>
                obtain ⟨y, hw⟩ := hO.memo _ _ hm
                exact (hW.obj hw hnd' rfl).elim
            simp only [loadW, hm, hnd'] at h1
            have hkept := hrefs _ _ _ _ _ hnd'
            obtain ⟨new, st⟩ := ih f t sub.addr s s1 w.call w1 x h1 hch (hdeep sub (by simp)) ⟨hO.nodup, hO.group, hO.kept, hO.memo⟩
              (fun h1 h2 => hO.kept t h2 hkept h1) (.inl hkept)
            refine ⟨new, st.made, st.small, ?_, st.keep, st.memoNew, st.once⟩
            intro u hu hnone
            rcases st.inside u hu hnone with rfl | h
            · exact (st.once.kept u (by rw [st.made]; simp [hu]) hkept hnone).elim
            · exact .inr h
      obtain ⟨new1, st1⟩ := hone
      split at h
      · simp at h
      · split at h
        · simp at h
        · simp only [List.map_cons, List.nodup_cons] at hnd
          obtain ⟨new2, st2⟩ := ihl (fun z hz => hdeep z (by simp [hz])) (fun z hz => hpar z (by simp [hz])) hnd.2 s1 w1 _ st1.once (by
            intro l hl hnone hmem
            rw [st1.made] at hmem
            rcases List.mem_append.1 hmem with hmem | hmem
            · rcases st1.inside _ hmem hnone with e | ⟨g, hg, e⟩
              · exact hnd.1 (List.mem_map.2 ⟨l, hl, e⟩)
              · rw [hpar l (by simp [hl])] at e
                simp at e; subst e
                obtain ⟨z, h1, h2⟩ := st1.small _ hg
                obtain ⟨z', h3, h4⟩ := hact _ hn
                rw [hW.fn _ _ _ h3 h1] at h4
                exact h4 h2
            · cases hm : Assoc.get? s.memo l.2 with
              | none => exact hpre l (by simp [hl]) hm hmem
              | some v => rw [st1.keep _ _ hm] at hnone; simp at hnone) h
          refine ⟨new2 ++ new1, by rw [st2.made, st1.made]; simp, ?_, ?_, fun m v h => st2.keep _ _ (st1.keep _ _ h), ?_, st2.once⟩
          · intro u hu
            rcases List.mem_append.1 hu with hu | hu
            · exact st2.small u hu
            · exact st1.small u hu
          · intro u hu hnone
            rcases List.mem_append.1 hu with hu | hu
            · exact (st2.inside u hu hnone).imp id fun ⟨g, h1, h2⟩ => ⟨g, by simp [h1], h2⟩
            · have hnone1 : Assoc.get? s1.memo u = none := by
                cases hm : Assoc.get? s1.memo u with
                | none => rfl
                | some v => rw [st2.keep _ _ hm] at hnone; simp at hnone
              rcases st1.inside u hu hnone1 with rfl | ⟨g, h1, h2⟩
              · exact .inl (hpar (name, u) (by simp))
              · exact .inr ⟨g, by simp [h1], h2⟩
          · intro u v hv
            rcases st2.memoNew u v hv with hv | hv
            · exact st1.memoNew u v hv
            · exact .inr hv

theorem loadW_once {L : Loaders C D V P K} {shares : C → Prop} {Hf : Heap C D} {file : File C V P} {W : Nat → Nat → Prop} (hW : Whole L shares Hf file W)
    (hrefs : ∀ (n : Nat) (pa : Option Nat) (na : String) (t : Nat) (at' : Attrs V), file[n]? = some ⟨pa, na, .ref t at'⟩ → Kept L file t)
    {order : List (String × Nat) → List (String × Nat)} (hord : ∀ l, (order l).Perm l) (k : Nat) : ∀ (act : List Nat), (∀ g ∈ act, ∃ z, W g z ∧ ¬ Deep L Hf k z) →
      ∀ (f n y : Nat) (s s' : LState C D) (w w' : Work) (x : Nat), loadW L file order f n s w = .ok (x, s', w') → W n y → Deep L Hf k y → Once L file W act s w →
      (Assoc.get? s.memo n = none → n ∉ w.made) → (Kept L file n ∨ ∀ g, parentOf file n = some g → g ∈ act) → ∃ new, OStep L Hf file W k act (· = n) s s' w w' new := by
  induction k with
  | zero => intro act _ f n y s s' w w' x _ _ h; exact h.elim
  | succ k ih =>
    intro act hact f n y s s' w w' x h hw hd hO hpre hpar
    by_cases hdk : Deep L Hf k y
    · obtain ⟨new, st⟩ := ih act (fun g hg => (hact g hg).imp fun z h => ⟨h.1, fun hz => h.2 hz.succ⟩) f n y s s' w w' x h hw hdk hO hpre hpar
      exact ⟨new, st.up⟩
    cases f with
    | zero => simp [loadW] at h
    | succ f =>
    simp only [loadW] at h
    cases hm : Assoc.get? s.memo n with
    | some v =>
      simp [hm] at h
      obtain ⟨rfl, rfl, rfl⟩ := h
      exact ⟨[], rfl, by simp, by simp, fun _ _ h => h, fun _ _ h => .inl h, ⟨hO.nodup, hO.group, hO.kept, hO.memo⟩⟩
    | none =>
      obtain ⟨subs, ⟨o, m, cls, base, attrs, pa, na, r1, r2, r3, r4, r5, r6, r7, r8⟩, hls⟩ := hW.rep n y hw
      simp only [hm, r3] at h
      split at h
      · simp at h
      · next k1 s1 w1 h1 =>
        split at h
        · simp at h
        · next x' hp hc =>
          simp only [Except.ok.injEq, Prod.mk.injEq] at h
          obtain ⟨rfl, rfl, rfl⟩ := h
          obtain ⟨subs', p1, hls'⟩ := all2_perm (hord _).symm hls
          have hnact : n ∉ act := by
            intro hg
            obtain ⟨z, h3, h4⟩ := hact _ hg
            rw [hW.fn _ _ _ h3 hw] at h4
            exact h4 hd
          have hact' : ∀ g ∈ n :: act, ∃ z, W g z ∧ ¬ Deep L Hf k z := by
            intro g hg
            rcases List.mem_cons.1 hg with rfl | hg
            · exact ⟨y, hw, hdk⟩
            · exact (hact g hg).imp fun z h => ⟨h.1, fun hz => h.2 hz.succ⟩
          have hparl : ∀ l ∈ order (links file n), parentOf file l.2 = some n := by
            intro l hl
            obtain ⟨nd, e1, e2⟩ := links_mem ((hord _).mem_iff.1 hl)
            simp [parentOf, e1, e2]
          obtain ⟨new, st⟩ := itemsW_once hW hrefs hact' (by simp) (ih (n :: act) hact') (L.restorer base) _ subs' hls'
            (fun sub hs => hd _ (r8 sub (p1.mem_iff.1 hs))) hparl (((hord _).map _).nodup_iff.2 (members_nodup _ _ _)) s s1 w.call w1 _ k1
            ⟨hO.nodup, fun m hm h g hg => (hO.group m hm h g hg).imp id fun h => by simp [h], hO.kept, hO.memo⟩
            (by
              intro l hl hnone hmem
              rcases hO.group _ hmem hnone _ (hparl l hl) with h | h
              · exact hpre hm h
              · exact hnact h) h1
          have hnew : n ∉ new := by
            intro hn
            obtain ⟨z, h3, h4⟩ := st.small _ hn
            rw [hW.fn _ _ _ h3 hw] at h4
            exact hdk h4
          generalize hM : (if (L.entry (L.clsOf cls)).memoise then Assoc.put s1.memo n x' else s1.memo) = M1
          have hkeep : ∀ m v, m ≠ n → Assoc.get? s1.memo m = some v → Assoc.get? M1 m = some v := by
            intro m v hmn hv
            subst hM
            split
            · rw [Assoc.get?_put_ne _ _ (Ne.symm hmn)]; exact hv
            · exact hv
          have hnone1 : ∀ m, m ≠ n → Assoc.get? M1 m = none → Assoc.get? s1.memo m = none := by
            intro m hmn hv
            cases h : Assoc.get? s1.memo m with
            | none => rfl
            | some v => rw [hkeep _ _ hmn h] at hv; simp at hv
          have hmade : (w1.make n).made = (n :: new) ++ w.made := by simp [Work.make, st.made, Work.call]
          have hnm : ∀ v, Assoc.get? M1 n = some v → ∃ z, W n z ∧ Deep L Hf (k + 1) z := fun _ _ => ⟨y, hw, hd⟩
          have hMnew : ∀ m v, Assoc.get? M1 m = some v → Assoc.get? s1.memo m = some v ∨ m = n := by
            intro m v hv
            by_cases hmn : m = n
            · exact .inr hmn
            · subst hM
              split at hv
              · rw [Assoc.get?_put_ne _ _ (Ne.symm hmn)] at hv; exact .inl hv
              · exact .inl hv
          refine ⟨n :: new, hmade, ?_, ?_, ?_, ?_, ?_⟩
          · intro u hu
            rcases List.mem_cons.1 hu with rfl | hu
            · exact ⟨y, hw, hd⟩
            · exact (st.small u hu).imp fun _ h => ⟨h.1, h.2.succ⟩
          · intro u hu hnone
            rcases List.mem_cons.1 hu with rfl | hu
            · exact .inl rfl
            · have hun : u ≠ n := fun e => hnew (e ▸ hu)
              rcases st.inside u hu (hnone1 u hun hnone) with e | ⟨g, h1, h2⟩
              · exact .inr ⟨n, by simp, e⟩
              · exact .inr ⟨g, by simp [h1], h2⟩
          · intro u v hv
            have hun : u ≠ n := by rintro rfl; rw [hm] at hv; simp at hv
            exact hkeep u v hun (st.keep _ _ hv)
          · intro u v hv
            rcases hMnew u v hv with hv | rfl
            · exact (st.memoNew u v hv).imp id fun ⟨z, h1, h2⟩ => ⟨z, h1, h2.succ⟩
            · exact .inr ⟨y, hw, hd⟩
          · refine ⟨?_, ?_, ?_, ?_⟩
            · rw [hmade]
              have := st.once.nodup
              rw [st.made] at this
              simp only [List.cons_append, List.nodup_cons]
              refine ⟨?_, this⟩
              intro hmem
              rcases List.mem_append.1 hmem with h | h
              · exact hnew h
              · exact hpre hm h
            · intro u hu hnone g hg
              by_cases hun : u = n
              · subst hun
                rcases hpar with hk | hk
                · obtain ⟨_, _, cls', _, _, _, e1, e2⟩ := hk
                  rw [r3] at e1
                  simp at e1
                  obtain ⟨rfl, rfl, rfl, rfl, rfl, rfl⟩ := e1
                  subst hM
                  simp [e2] at hnone
                · exact .inr (hk g hg)
              · have hu' : u ∈ w1.made := by simpa [Work.make, hun] using hu
                rcases st.once.group u hu' (hnone1 u hun hnone) g hg with h | h
                · exact .inl (by simp [Work.make, h])
                · rcases List.mem_cons.1 h with rfl | h
                  · exact .inl (by simp [Work.make])
                  · exact .inr h
            · intro u hu hk hnone
              by_cases hun : u = n
              · subst hun
                obtain ⟨_, _, cls', _, _, _, e1, e2⟩ := hk
                rw [r3] at e1
                simp at e1
                obtain ⟨rfl, rfl, rfl, rfl, rfl, rfl⟩ := e1
                subst hM
                simp [e2] at hnone
              · have hu' : u ∈ w1.made := by simpa [Work.make, hun] using hu
                exact st.once.kept u hu' hk (hnone1 u hun hnone)
            · intro u v hv
              rcases hMnew u v hv with hv | rfl
              · exact st.once.memo u v hv
              · exact ⟨y, hw⟩

/-! ### dump writes each object once -/

/-- the objects that are remembered -/
def keys (s : DState C D V P) : List Nat := s.memo.map (·.1)

/-- total of `sz` -/
def sumOf (sz : Nat → Nat) (l : List Nat) : Nat := (l.map sz).sum

theorem sumOf_append (sz : Nat → Nat) (l l' : List Nat) : sumOf sz (l ++ l') = sumOf sz l + sumOf sz l' := by simp [sumOf]

theorem sumOf_le (sz : Nat → Nat) {l r : List Nat} (hn : l.Nodup) (h : ∀ x ∈ l, x ∈ r) : sumOf sz l ≤ sumOf sz r := by
  induction l generalizing r with
  | nil => simp [sumOf]
  | cons x l ih =>
    obtain ⟨h1, h2⟩ := List.nodup_cons.1 hn
    have hp := List.perm_cons_erase (h x (by simp))
    have := ih (r := r.erase x) h2 fun z hz => (List.mem_erase_of_ne (fun e : z = x => h1 (e ▸ hz))).2 (h z (by simp [hz]))
    have e : sumOf sz r = sz x + sumOf sz (r.erase x) := by
      unfold sumOf
      rw [sum_perm (hp.map sz)]; simp
    rw [e]
    simp only [sumOf, List.map_cons, List.sum_cons] at this ⊢
    omega

/-- what is remembered is an object, and is remembered once -/
structure Keys (s : DState C D V P) : Prop where
  nodup : (keys s).Nodup
  lt : ∀ y ∈ keys s, y < s.heap.length

/-- what a call of `_dump` adds -/
structure Adds (sz : Nat → Nat) (s s' : DState C D V P) (news : Nat) (new : List Nat) : Prop where
  keys : (keys s').Perm (new ++ keys s)
  file : s'.file.length ≤ s.file.length + news + sumOf sz new
  heap : s.heap <+: s'.heap
  ok : Keys s'

theorem each_adds {sz : Nat → Nat} {Hf : Heap C D} {α : Type} {f : α → DState C D V P → Except PyErr (DState C D V P)}
    (hp : ∀ x s s', f x s = .ok s' → s.heap <+: s'.heap)
    (hf : ∀ x s s', f x s = .ok s' → Keys s → s'.heap <+: Hf → ∃ new, Adds sz s s' 1 new) (l : List α) (s s' : DState C D V P) (h : each f l s = .ok s') (hs : Keys s)
    (hh : s'.heap <+: Hf) : ∃ new, Adds sz s s' l.length new := by
  induction l generalizing s with
  | nil => simp [each] at h; subst h; exact ⟨[], by simp, by simp, List.prefix_rfl, hs⟩
  | cons x l ih =>
    simp only [each] at h
    split at h
    · next s1 h1 =>
      have hmono : ∀ (l : List α) (s s' : DState C D V P), each f l s = .ok s' → s.heap <+: s'.heap := by
        intro l
        induction l with
        | nil => intro s s' h; simp [each] at h; subst h; exact List.prefix_rfl
        | cons x l ih =>
          intro s s' h
          simp only [each] at h
          split at h
          · next s1 h1 => exact (hp _ _ _ h1).trans (ih _ _ h)
          · simp at h
      obtain ⟨new1, a1⟩ := hf _ _ _ h1 hs ((hmono _ _ _ h).trans hh)
      obtain ⟨new2, a2⟩ := ih _ h a1.ok
      refine ⟨new2 ++ new1, ?_, ?_, a1.heap.trans a2.heap, a2.ok⟩
      · rw [List.append_assoc]; exact a2.keys.trans (a1.keys.append_left new2)
      · rw [sumOf_append]
        have := a1.file; have := a2.file
        simp only [List.length_cons]; omega
    · simp at h

theorem dump_heap {L : Loaders C D V P K} (hkeep : ∀ H o m, (L.entry o.cls).create H o = .ok m → H <+: m.heap) (fuel : Nat) :
    ∀ (a : Nat) (parent : Option Nat) (name : String) (attrs : Attrs V) (s s' : DState C D V P), dump L fuel a parent name attrs s = .ok s' → s.heap <+: s'.heap := by
  induction fuel with
  | zero => intro a parent name attrs s s' h; simp [dump] at h
  | succ fuel ih =>
    intro a parent name attrs s s' h
    simp only [dump] at h
    split at h
    · rw [push_ok h]; exact List.prefix_rfl
    · split at h
      · simp at h
      · next o ho =>
        split at h
        · next m hcr =>
          split at h
          · simp at h
          · next s1 hp =>
            have hmono : ∀ (l : List (Sub V)) (n : Nat) (s s' : DState C D V P), each (fun sub => dump L fuel sub.addr (some n) sub.name sub.attrs) l s = .ok s' → s.heap <+: s'.heap := by
              intro l n
              induction l with
              | nil => intro s s' h; simp [each] at h; subst h; exact List.prefix_rfl
              | cons x l ihl =>
                intro s s' h
                simp only [each] at h
                split at h
                · next s1 h1 => exact (ih _ _ _ _ _ _ h1).trans (ihl _ _ h)
                · simp at h
            have := hmono _ _ _ _ h
            rw [push_ok hp] at this
            refine (hkeep _ _ _ hcr).trans ?_
            unfold remember at this
            split at this <;> exact this
        · split at h
          · simp at h
          · split at h
            · simp at h
            · next s1 hp =>
              simp at h; subst h
              rw [push_ok hp]
              unfold remember; split <;> exact List.prefix_rfl
        · simp at h

theorem remember_adds {s : DState C D V P} (hs : Keys s) {a : Nat} (hm : Assoc.get? s.memo a = none) (ha : a < s.heap.length) {H : Heap C D} (hh : s.heap <+: H) {f : File C V P} {n : Nat} {b : Bool} :
    (keys (remember (⟨H, f, s.memo⟩ : DState C D V P) b a n)).Perm ((if b then [a] else []) ++ keys s) ∧ Keys (remember (⟨H, f, s.memo⟩ : DState C D V P) b a n) := by
  have hlt : ∀ y, y < s.heap.length → y < H.length := fun y hy => by have := hh.length_le; omega
  unfold remember
  split
  · refine ⟨by simp [keys, Assoc.put], ?_, ?_⟩
    · simp only [keys, Assoc.put, List.map_cons, List.nodup_cons]
      refine ⟨?_, hs.nodup⟩
      intro h
      obtain ⟨p, h1, rfl⟩ := List.mem_map.1 h
      exact Assoc.get?_none_of_mem hm h1
    · intro y hy
      simp only [keys, Assoc.put, List.map_cons] at hy
      rcases List.mem_cons.1 hy with rfl | h
      · exact hlt _ ha
      · exact hlt _ (hs.lt _ h)
  · exact ⟨by simp [keys], hs.nodup, fun y hy => hlt _ (hs.lt y hy)⟩

/-- `sz` is how many sub items an object has; objects with sub items are remembered -/
def Sized (L : Loaders C D V P K) (Hf : Heap C D) (sz : Nat → Nat) : Prop :=
  ∀ (H : Heap C D) (y : Nat) (o : Obj C D) (m : Made C D V P), H[y]? = some o → (L.entry o.cls).create H o = .ok m → m.heap <+: Hf →
    m.subs.length ≤ sz y ∧ ((L.entry o.cls).memoise = false → m.subs = [])

theorem dump_adds {L : Loaders C D V P K} (hkeep : ∀ H o m, (L.entry o.cls).create H o = .ok m → H <+: m.heap) {Hf : Heap C D} {sz : Nat → Nat} (hsz : Sized L Hf sz) (fuel : Nat) :
    ∀ (a : Nat) (parent : Option Nat) (name : String) (attrs : Attrs V) (s s' : DState C D V P), dump L fuel a parent name attrs s = .ok s' → Keys s → s'.heap <+: Hf →
      ∃ new, Adds sz s s' 1 new := by
  induction fuel with
  | zero => intro a parent name attrs s s' h; simp [dump] at h
  | succ fuel ih =>
    intro a parent name attrs s s' h hs hh
    simp only [dump] at h
    split at h
    · have e := push_ok h
      subst e
      exact ⟨[], by simp [keys], by simp, List.prefix_rfl, hs.nodup, hs.lt⟩
    · next hm =>
      split at h
      · simp at h
      · next o ho =>
        split at h
        · next m hcr =>
          split at h
          · simp at h
          · next s1 hp =>
            have e := push_ok hp
            subst e
            obtain ⟨e1, e2⟩ := remember_adds hs hm (lt_of_some ho) (hkeep _ _ _ hcr) (f := s.file ++ [⟨parent, name, .obj (some o.cls) (L.entry o.cls).base m.payload (nodeAttrs m.own attrs)⟩])
              (n := s.file.length) (b := (L.entry o.cls).memoise)
            simp only at h
            generalize hs1 : remember _ _ _ _ = s1 at h
            have hs1' := hs1
            rw [hs1] at e1 e2
            have hf1 : s1.file.length = s.file.length + 1 := by rw [← hs1]; unfold remember; split <;> simp
            have hh1 : s1.heap = m.heap := by rw [← hs1]; unfold remember; split <;> rfl
            obtain ⟨new, ad⟩ := each_adds (fun x s s' h => dump_heap hkeep fuel _ _ _ _ _ _ h) (fun x s s' h => ih _ _ _ _ s s' h) _ _ _ h e2 hh
            obtain ⟨g1, g2⟩ := hsz _ _ _ _ ho hcr (by rw [← hh1]; exact ad.heap.trans hh)
            refine ⟨new ++ (if (L.entry o.cls).memoise then [a] else []), ?_, ?_, ?_, ad.ok⟩
            · rw [List.append_assoc]; exact ad.keys.trans (e1.append_left new)
            · rw [sumOf_append]
              have := ad.file
              cases hme : (L.entry o.cls).memoise with
              | true => simp [sumOf] at this ⊢; omega
              | false =>
                rw [g2 hme] at this
                simp [sumOf] at this ⊢; omega
            · exact (hkeep _ _ _ hcr).trans (by rw [← hh1]; exact ad.heap)
        · split at h
          · simp at h
          · split at h
            · simp at h
            · next s1 hp =>
              have e := push_ok hp
              subst e
              simp only [Except.ok.injEq] at h
              obtain ⟨e1, e2⟩ := remember_adds hs hm (lt_of_some ho) List.prefix_rfl (f := s.file ++ [_]) (n := s.file.length) (b := (L.entry o.cls).memoise)
              subst h
              refine ⟨_, e1, ?_, ?_, e2⟩
              · have : ∀ (s0 : DState C D V P) b a n, (remember s0 b a n).file = s0.file := by intro s0 b a n; unfold remember; split <;> rfl
                rw [this]; simp
              · have : ∀ (s0 : DState C D V P) b a n, (remember s0 b a n).heap = s0.heap := by intro s0 b a n; unfold remember; split <;> rfl
                rw [this]; exact List.prefix_rfl
        · simp at h

/-! ### the whole file -/

/-- what `load_spec` and `loadW_once` need to know of a file -/
theorem dumpTop_whole {L : Loaders C D V P K} {good : Heap C D → Prop} {shares : C → Prop} {isSub : String → Prop} (hc : Contract L good shares isSub) {H : Heap C D} (hg : good H) {a fuel : Nat}
    {file : File C V P} (h : dumpTop L fuel H a = .ok file) :
    ∃ W Hf nd f, Whole L shares Hf file W ∧ H <+: Hf ∧ W 0 a ∧ file = nd :: f ∧ nd.parent = none ∧
      ∀ (n : Nat) (pa : Option Nat) (na : String) (t : Nat) (at' : Attrs V), file[n]? = some ⟨pa, na, .ref t at'⟩ → Kept L file t := by
  unfold dumpTop at h
  cases hdump : dump L fuel a none "data" [] ⟨H, [], []⟩ with
  | error e => rw [hdump] at h; simp [Except.map] at h
  | ok s' =>
    rw [hdump] at h
    simp [Except.map] at h
    subst h
    have hI : Inv L good shares (fun _ _ => False) [] (⟨H, [], []⟩ : DState C D V P) :=
      ⟨hg, by simp, fun y n h => by simp at h, fun _ _ _ h => h.elim, fun _ _ _ h => h.elim, fun _ _ h => h.elim⟩
    obtain ⟨W, nd, news, st⟩ := dump_spec hc fuel a none "data" [] _ s' _ [] hdump hI (by simp) (by simp)
    refine ⟨W, s'.heap, nd, news, ⟨st.inv.fn, ?_, ?_⟩, st.heap, (st.direct rfl).1, by simpa using st.file, st.pa, ?_⟩
    · intro n y hw
      obtain ⟨subs, h1, h2⟩ := st.inv.rep n y hw
      exact ⟨subs, h1, h2 (by simp)⟩
    · intro n n' y o h1 h2 h3 h4
      have e1 := st.inv.memoised _ _ _ h1 h3 (hc.memo _ h4)
      have e2 := st.inv.memoised _ _ _ h2 h3 (hc.memo _ h4)
      rw [e1] at e2; simpa using e2
    · exact (dump_refs hc.objMemo fuel _ _ _ _ _ _ hdump ⟨fun y n h => by simp at h, fun n pa na t at' h => by simp at h⟩).refs

/-- the work of a load of what dump wrote -/
theorem load_work {L : Loaders C D V P K} {good : Heap C D → Prop} {shares : C → Prop} {isSub : String → Prop} (hc : Contract L good shares isSub) {H : Heap C D} (hg : good H) {a k : Nat}
    (hd : ∀ Hf, H <+: Hf → Deep L Hf k a) {fuel : Nat} {file : File C V P} (h : dumpTop L fuel H a = .ok file)
    {order : List (String × Nat) → List (String × Nat)} (hord : ∀ l, (order l).Perm l) {f : Nat} (hf : 2 * k ≤ f) :
    ∃ b s w, loadW L file order f 0 ⟨[], []⟩ ⟨0, []⟩ = .ok (b, s, w) ∧ loadTop L order f file = .ok (b, s.heap) ∧ w.made.Nodup ∧ w.calls ≤ file.length + refs file := by
  obtain ⟨W, Hf, nd, fl, hW, hpre, hroot, hfile, hpar, hrefs⟩ := dumpTop_whole hc hg h
  obtain ⟨x, s, R, e1, _, _⟩ := load_spec hW hord k f 0 a (fun _ _ => False) ⟨[], []⟩ hf hroot (hd _ hpre)
    ⟨fun _ _ h => h.elim, fun n x h => by simp at h, fun _ _ _ h => h.elim, fun _ _ _ _ h => h.elim⟩
  have hfo := loadW_forget L file order f 0 ⟨[], []⟩ ⟨0, []⟩
  rw [e1] at hfo
  cases hl : loadW L file order f 0 ⟨[], []⟩ ⟨0, []⟩ with
  | error e => rw [hl] at hfo; simp [forget] at hfo
  | ok v =>
    obtain ⟨b, s1, w⟩ := v
    rw [hl] at hfo
    simp [forget] at hfo
    obtain ⟨rfl, rfl⟩ := hfo
    refine ⟨b, s1, w, rfl, by simp [loadTop, e1, Except.map], ?_⟩
    obtain ⟨new, st⟩ := loadW_once hW hrefs hord k [] (by simp) f 0 a _ _ _ _ _ hl hroot (hd _ hpre) ⟨by simp, by simp, by simp, by simp⟩ (by simp)
      (.inr fun g hg => by simp [parentOf, hfile, hpar] at hg)
    have hn := st.once.nodup
    refine ⟨hn, ?_⟩
    obtain ⟨new', f1, f2⟩ := loadW_calls (fun n pa na t at' h => by obtain ⟨pa, na, cls, base, p, attrs, h, _⟩ := hrefs _ _ _ _ _ h; exact ⟨pa, na, cls, base, p, attrs, h⟩) hord f _ _ _ _ _ _ hl
    simp at f1
    rw [f1] at hn
    have h3 := total_le hn hfile hpar
    have h4 : weight file 0 = 1 := by
      obtain ⟨_, ⟨o, m, cls, base, attrs, pa, na, _, _, r3, _⟩, _⟩ := hW.rep 0 a hroot
      simp [weight, r3]
    have f2 : w.calls ≤ 0 + weight file 0 + total file new' := f2
    rw [h4] at f2
    subst hfile
    have h5 : refs fl ≤ refs (nd :: fl) := by simp only [refs, List.countP_cons]; omega
    simp only [List.length_cons]
    omega

end Verif.Custom
