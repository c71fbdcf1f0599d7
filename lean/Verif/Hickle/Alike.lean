import Verif.Hickle.DumpTwins
/-!
# Two object graphs that are dumped alike

Two runs of `dump` on different object graphs that correspond object by object.  The relation `R` says which objects correspond;
it grows when temporary objects come into being.
-/
namespace Verif

/-! ### corresponding objects -/

/-- the object at the address is a number of a built-in or numpy class -/
def NumAt (h : Heap) (x : Addr) (v : NpVal) : Prop := ∃ o, h[x]? = some o ∧ exactNum o = some v

/-- the common type of numbers -/
def joinDt : List NpVal → Option DT
  | [] => none
  | v :: vs => some (vs.foldl (fun d w => d.join w.dt) v.dt)

/-- numbers that are the same once they have been brought to their common type -/
def NumAlike (h h' : Heap) (xs ys : List Addr) : Prop :=
  ∃ vs ws d, All2 (NumAt h) xs vs ∧ All2 (NumAt h') ys ws ∧ joinDt vs = some d ∧ joinDt ws = some d ∧ vs.map (castNum d) = ws.map (castNum d)

/-- items of sequences and sets -/
def ItemsAlike (h h' : Heap) (R : Addr → Addr → Prop) (xs ys : List Addr) : Prop := All2 R xs ys ∨ NumAlike h h' xs ys

/-- entries of dicts: keys that become names need only be equal -/
def EntryAlike (env : Env) (h h' : Heap) (R : Addr → Addr → Prop) (e e' : Addr × Addr) : Prop :=
  ((∃ q, h[e.1]? = some q ∧ h'[e'.1]? = some q ∧ keySlot env q ≠ .ok none) ∧ R e.2 e'.2) ∨
  (R e.1 e'.1 ∧ R e.2 e'.2) ∨
  (NumAlike h h' [e.1, e.2] [e'.1, e'.2] ∧ (∃ q, h[e.1]? = some q ∧ keySlot env q = .ok none) ∧ ∃ q, h'[e'.1]? = some q ∧ keySlot env q = .ok none)

/-- values whose parts correspond in order -/
inductive ValAlike (env : Env) (h h' : Heap) (R : Addr → Addr → Prop) : Val → Val → Prop
  | atom {v} : v.isAtom = true → ValAlike env h h' R v v
  | seq {xs ys} : ItemsAlike h h' R xs ys → ValAlike env h h' R (.seq xs) (.seq ys)
  | set {xs ys} : ItemsAlike h h' R xs ys → ValAlike env h h' R (.set xs) (.set ys)
  | dict {es es'} : All2 (EntryAlike env h h' R) es es' → ValAlike env h h' R (.dict es) (.dict es')
  | oarr {sh xs ys} : All2 R xs ys → ValAlike env h h' R (.oarr sh xs) (.oarr sh ys)
  | sparse {d i p d' i' p' sh} : R d d' → R i i' → R p p' → ValAlike env h h' R (.sparse d i p sh) (.sparse d' i' p' sh)

/-- corresponding objects have the same class and corresponding values -/
def Alike (env : Env) (h h' : Heap) (R : Addr → Addr → Prop) : Prop :=
  ∀ x y, R x y → ∃ o o', h[x]? = some o ∧ h'[y]? = some o' ∧ o.cls = o'.cls ∧ ValAlike env h h' R o.val o'.val

theorem NumAlike.grow {h h' k k' : Heap} {xs ys} (hp : h <+: k) (hp' : h' <+: k') (a : NumAlike h h' xs ys) : NumAlike k k' xs ys := by
  obtain ⟨vs, ws, d, h1, h2, h3⟩ := a
  refine ⟨vs, ws, d, h1.mono ?_, h2.mono ?_, h3⟩
  · rintro x v ⟨o, e1, e2⟩; exact ⟨o, getElem?_prefix hp e1, e2⟩
  · rintro x v ⟨o, e1, e2⟩; exact ⟨o, getElem?_prefix hp' e1, e2⟩

theorem ItemsAlike.grow {h h' k k' : Heap} {R R' : Addr → Addr → Prop} {xs ys} (hp : h <+: k) (hp' : h' <+: k') (hR : ∀ x y, R x y → R' x y) (a : ItemsAlike h h' R xs ys) :
    ItemsAlike k k' R' xs ys := by
  rcases a with a | a
  · exact .inl (a.mono hR)
  · exact .inr (a.grow hp hp')

theorem EntryAlike.grow {env : Env} {h h' k k' : Heap} {R R' : Addr → Addr → Prop} {e e'} (hp : h <+: k) (hp' : h' <+: k') (hR : ∀ x y, R x y → R' x y)
    (a : EntryAlike env h h' R e e') : EntryAlike env k k' R' e e' := by
  rcases a with ⟨⟨q, h1, h2, h3⟩, h4⟩ | ⟨h1, h2⟩ | ⟨h1, ⟨q, h2, h3⟩, q', h4, h5⟩
  · exact .inl ⟨⟨q, getElem?_prefix hp h1, getElem?_prefix hp' h2, h3⟩, hR _ _ h4⟩
  · exact .inr (.inl ⟨hR _ _ h1, hR _ _ h2⟩)
  · exact .inr (.inr ⟨h1.grow hp hp', ⟨q, getElem?_prefix hp h2, h3⟩, q', getElem?_prefix hp' h4, h5⟩)

theorem ValAlike.grow {env : Env} {h h' k k' : Heap} {R R' : Addr → Addr → Prop} {v v'} (hp : h <+: k) (hp' : h' <+: k') (hR : ∀ x y, R x y → R' x y)
    (a : ValAlike env h h' R v v') : ValAlike env k k' R' v v' := by
  cases a with
  | atom ha => exact .atom ha
  | seq a => exact .seq (a.grow hp hp' hR)
  | set a => exact .set (a.grow hp hp' hR)
  | dict a => exact .dict (a.mono fun _ _ a => a.grow hp hp' hR)
  | oarr a => exact .oarr (a.mono hR)
  | sparse a b c => exact .sparse (hR _ _ a) (hR _ _ b) (hR _ _ c)

section
variable {env : Env} {h h' : Heap} {R : Addr → Addr → Prop}

theorem NumAt.shape {x : Addr} {v : NpVal} (hx : NumAt h x v) (n : Nat) : npShape h (n + 1) x = some [] := by
  obtain ⟨⟨cl, val⟩, h1, h2⟩ := hx
  unfold exactNum at h2
  split at h2 <;> (first | (simp at h2; done) | skip) <;> simp_all [npShape]

theorem NumAt.dims {x : Addr} {v : NpVal} (hx : NumAt h x v) : hasDims env h x = .ok false := by
  obtain ⟨⟨cl, val⟩, h1, h2⟩ := hx
  unfold exactNum at h2
  split at h2 <;> (first | (simp at h2; done) | skip) <;> simp_all [hasDims]

theorem ValAlike.num {cl : Cls} {v v' : Val} (a : ValAlike env h h' R v v') : exactNum ⟨cl, v⟩ = exactNum ⟨cl, v'⟩ := by
  cases a with
  | atom => rfl
  | _ => cases cl <;> rfl

theorem All2.mapM_eq {α β γ : Type} {f : α → Option γ} {g : β → Option γ} {r : α → β → Prop} {xs : List α} {ys : List β} (h : All2 r xs ys)
    (he : ∀ x y, r x y → f x = g y) : xs.mapM f = ys.mapM g := by
  induction h with
  | nil => rfl
  | cons h1 _ ih => simp only [List.mapM_cons, he _ _ h1, ih]

theorem NumAlike.shapes {xs ys : List Addr} (a : NumAlike h h' xs ys) (n : Nat) : xs.mapM (npShape h (n + 1)) = ys.mapM (npShape h' (n + 1)) := by
  obtain ⟨vs, ws, d, h1, h2, e1, e2, h3⟩ := a
  have hl : vs.length = ws.length := by simpa using congrArg List.length h3
  clear h3 e1 e2
  induction h1 generalizing ys ws with
  | nil => cases ws with
    | nil => cases h2; rfl
    | cons => simp at hl
  | cons x1 _ ih =>
    cases h2 with
    | nil => simp at hl
    | cons y1 h2 => simp only [List.mapM_cons, x1.shape n, y1.shape n, ih _ h2 (by simpa using hl)]

theorem Alike.shape (H : Alike env h h' R) : ∀ (n : Nat) (x y : Addr), R x y → npShape h n x = npShape h' n y := by
  intro n
  induction n with
  | zero => intro x y _; rfl
  | succ n ih =>
    intro x y hxy
    obtain ⟨⟨cl, v⟩, ⟨cl', v'⟩, e1, e2, e3, e4⟩ := H x y hxy
    simp only at e3 e4; subst e3
    cases e4 with
    | atom ha => cases v <;> simp only [npShape, e1, e2] <;> simp [Val.isAtom] at ha
    | set | dict | oarr | sparse => simp only [npShape, e1, e2]
    | @seq xs ys a =>
      simp only [npShape, e1, e2]
      have : xs.mapM (npShape h n) = ys.mapM (npShape h' n) := by
        rcases a with a | a
        · exact a.mapM_eq ih
        · cases n with
          | zero =>
            obtain ⟨vs, ws, d, h1, h2, j1, j2, _⟩ := a
            cases h1 with
            | nil => simp [joinDt] at j1
            | cons => cases h2 with
              | nil => simp [joinDt] at j2
              | cons => simp [npShape]
          | succ n => exact a.shapes n
      rw [this]

theorem Alike.dims (H : Alike env h h' R) {x y : Addr} (hxy : R x y) : hasDims env h x = hasDims env h' y := by
  have hs := H.shape (env.maxDims + 1) x y hxy
  obtain ⟨⟨cl, v⟩, ⟨cl', v'⟩, e1, e2, e3, e4⟩ := H x y hxy
  simp only at e3 e4; subst e3
  cases e4 with
  | atom ha => cases v <;> simp only [hasDims, e1, e2] <;> simp [Val.isAtom] at ha
  | set | dict | oarr | sparse => simp only [hasDims, e1, e2]
  | seq a => simp only [hasDims, e1, e2, hs]

theorem Alike.step (H : Alike env h h' R) {x y : Addr} (hxy : R x y) (cur : ItemDT) : itemStep env h cur x = itemStep env h' cur y := by
  have hd := H.dims hxy
  obtain ⟨⟨cl, v⟩, ⟨cl', v'⟩, e1, e2, e3, e4⟩ := H x y hxy
  simp only at e3 e4; subst e3
  unfold itemStep
  rw [hd, e1, e2]
  simp only [e4.num (cl := cl)]
  cases e4 with
  | atom => rfl
  | _ => cases cl <;> rfl

theorem Alike.loop (H : Alike env h h' R) {xs ys : List Addr} (a : All2 R xs ys) : ∀ cur, itemLoop env h cur xs = itemLoop env h' cur ys := by
  induction a with
  | nil => intro cur; rfl
  | cons h1 _ ih => intro cur; simp only [itemLoop, H.step h1, ih]

theorem Alike.check (H : Alike env h h' R) {xs ys : List Addr} (a : All2 R xs ys) : checkItems env h xs = checkItems env h' ys := by
  cases a with
  | nil => rfl
  | @cons x y xs ys h1 a =>
    obtain ⟨⟨cl, v⟩, ⟨cl', v'⟩, e1, e2, e3, e4⟩ := H x y h1
    simp only at e3 e4; subst e3
    simp only [checkItems, e1, e2, e4.num (cl := cl), H.loop a]
    cases e4 with
    | atom => rfl
    | _ => cases cl <;> rfl

theorem Alike.cast (H : Alike env h h' R) {x y : Addr} (hxy : R x y) (d : DT) : castItem h d x = castItem h' d y := by
  obtain ⟨⟨cl, v⟩, ⟨cl', v'⟩, e1, e2, e3, e4⟩ := H x y hxy
  simp only at e3 e4; subst e3
  simp only [castItem, e1, e2, e4.num (cl := cl)]

theorem Alike.casts (H : Alike env h h' R) {xs ys : List Addr} (a : All2 R xs ys) (d : DT) : castPrefix h d xs = castPrefix h' d ys := by
  induction a with
  | nil => rfl
  | cons h1 _ ih => simp only [castPrefix, H.cast h1, ih]

theorem NumAt.loop {xs : List Addr} {vs : List NpVal} (a : All2 (NumAt h) xs vs) : ∀ d, itemLoop env h (.num d) xs = .ok (some (.num (vs.foldl (fun d w => d.join w.dt) d))) := by
  induction a with
  | nil => intro d; rfl
  | cons h1 _ ih =>
    intro d
    have hd := h1.dims (env := env)
    obtain ⟨o, e1, e2⟩ := h1
    simp only [itemLoop, itemStep, hd, e1, e2, List.foldl_cons]
    exact ih _

theorem NumAt.check {xs : List Addr} {vs : List NpVal} {d : DT} (a : All2 (NumAt h) xs vs) (hd : joinDt vs = some d) : checkItems env h xs = .ok (some (.num d)) := by
  cases a with
  | nil => simp [joinDt] at hd
  | cons h1 a =>
    obtain ⟨o, e1, e2⟩ := h1
    simp only [checkItems, e1, e2, NumAt.loop a]
    simpa [joinDt] using hd

theorem NumAt.casts {xs : List Addr} {vs : List NpVal} (a : All2 (NumAt h) xs vs) (d : DT) : castPrefix h d xs = (vs.map (castNum d)).foldr (fun v l => match v with | some w => w :: l | none => []) [] := by
  induction a with
  | nil => rfl
  | cons h1 _ ih =>
    obtain ⟨o, e1, e2⟩ := h1
    simp only [castPrefix, castItem, e1, e2, Option.bind_some, ih, List.map_cons, List.foldr_cons]
    cases castNum d _ <;> rfl

/-! ### corresponding sub items -/

/-- the same exception, or results that correspond -/
inductive Agree {α β : Type} (Q : α → β → Prop) : Except PyErr α → Except PyErr β → Prop
  | ok {a b} : Q a b → Agree Q (.ok a) (.ok b)
  | error (e) : Agree Q (.error e) (.error e)

theorem Agree.imp {α β : Type} {Q Q' : α → β → Prop} {x y} (h : Agree Q x y) (hq : ∀ a b, Q a b → Q' a b) : Agree Q' x y := by
  cases h with
  | ok h => exact .ok (hq _ _ h)
  | error e => exact .error e

def LeafAlike (R : Addr → Addr → Prop) : Leaf → Leaf → Prop
  | .addr a, .addr b => R a b
  | .obj o, .obj o' => o = o' ∧ o.val.isAtom = true
  | _, _ => False

def ObjAlike (h h' : Heap) (R : Addr → Addr → Prop) : SubObj → SubObj → Prop
  | .addr a, .addr b => R a b
  | .pair k v, .pair k' v' => ItemsAlike h h' R [k, v] [k', v']
  | .nest c sh ls, .nest c' sh' ls' => c = c' ∧ sh = sh' ∧ All2 (LeafAlike R) ls ls'
  | _, _ => False

def SubAlike (h h' : Heap) (R : Addr → Addr → Prop) : Except PyErr Sub → Except PyErr Sub → Prop :=
  Agree fun u v => u.name = v.name ∧ u.attrs = v.attrs ∧ ObjAlike h h' R u.obj v.obj

theorem listSubs_alike {xs ys : List Addr} (a : All2 R xs ys) : ∀ i, All2 (SubAlike h h' R) (listSubs i xs) (listSubs i ys) := by
  induction a with
  | nil => intro i; exact .nil
  | cons h1 _ ih => intro i; exact .cons (.ok ⟨rfl, rfl, h1⟩) (ih _)

theorem nestSubs_alike (sh : List Nat) (n : Nat) : ∀ {ls ls' : List Leaf} (i : Nat), All2 (LeafAlike R) ls ls' → All2 (SubAlike h h' R) (nestSubs sh i n ls) (nestSubs sh i n ls') := by
  induction n with
  | zero => intro ls ls' i a; exact .nil
  | succ n ih => intro ls ls' i a; exact .cons (.ok ⟨rfl, rfl, rfl, rfl, a.take _⟩) (ih _ (a.drop _))

theorem Alike.key (H : Alike env h h' R) {x y : Addr} (hxy : R x y) : ∃ o o', h[x]? = some o ∧ h'[y]? = some o' ∧ keySlot env o = keySlot env o' := by
  obtain ⟨⟨cl, v⟩, ⟨cl', v'⟩, e1, e2, e3, e4⟩ := H x y hxy
  simp only at e3 e4; subst e3
  refine ⟨_, _, e1, e2, ?_⟩
  cases e4 with
  | atom => rfl
  | _ => rfl

theorem dictSubs_alike (H : Alike env h h' R) {es es' : List (Addr × Addr)} (a : All2 (EntryAlike env h h' R) es es') :
    ∀ i, All2 (SubAlike h h' R) (dictSubs env h i es) (dictSubs env h' i es') := by
  induction a with
  | nil => intro i; exact .nil
  | @cons e e' _ _ h1 _ ih =>
    intro i
    obtain ⟨k, v⟩ := e
    obtain ⟨k', v'⟩ := e'
    refine .cons ?_ (ih _)
    simp only [EntryAlike] at h1
    rcases h1 with ⟨⟨q, e1, e2, e3⟩, hv⟩ | ⟨hk, hv⟩ | ⟨hn, ⟨q, e1, e2⟩, q', e3, e4⟩
    · simp only [dictSub, e1, e2]
      cases hq : keySlot env q with
      | error e => exact .error e
      | ok sl => cases sl with
        | none => exact absurd hq e3
        | some sl => exact .ok ⟨rfl, rfl, hv⟩
    · obtain ⟨o, o', e1, e2, e3⟩ := H.key hk
      simp only [dictSub, e1, e2, e3]
      cases keySlot env o' with
      | error e => exact .error e
      | ok sl => cases sl with
        | none => exact .ok ⟨rfl, rfl, .inl (.cons hk (.cons hv .nil))⟩
        | some sl => exact .ok ⟨rfl, rfl, hv⟩
    · simp only [dictSub, e1, e2, e3, e4]
      exact .ok ⟨rfl, rfl, .inr hn⟩

/-! ### two runs -/

/-- the states of two runs that have done the same to the file, with corresponding objects -/
structure Mirror (P : Nat → Prop) (env : Env) (R : Addr → Addr → Prop) (s t : DState) : Prop where
  store : t.store = s.store
  tl : t.tlinks = s.tlinks
  bl : t.blinks = s.blinks
  reg : t.reg = s.reg
  alike : Alike env s.heap t.heap R
  /-- objects that are referred to when they occur again correspond one to one -/
  one : ∀ (x y x' y' : Addr) (o : Obj), R x y → R x' y' → s.heap[x]? = some o → (expected env o.cls).2.memoise = true → (x = x' ↔ y = y')
  memo : All2 (fun (p q : Addr × NodeId) => R p.1 q.1 ∧ p.2 = q.2 ∧ ∃ o : Obj, s.heap[p.1]? = some o ∧ (expected env o.cls).2.memoise = true) s.memo t.memo
  inv : RegInv P s.reg
  cls : ∀ o ∈ s.heap, GoodCls P env o.cls

/-- two computations that do the same to the file and give corresponding results -/
def Both {α β : Type} (W : DState → DState → Prop) (x : DM α) (y : DM β) (Q : α → β → Prop) : Prop :=
  ∀ s t, W s t → Agree Q (x s).1 (y t).1 ∧ W (x s).2 (y t).2

end

namespace Both
variable {α β γ δ : Type} {W : DState → DState → Prop}

theorem bind {x : DM α} {y : DM β} {f : α → DM γ} {g : β → DM δ} {Q : α → β → Prop} {Q' : γ → δ → Prop} (hx : Both W x y Q)
    (hf : ∀ a b, Q a b → Both W (f a) (g b) Q') : Both W (x >>= f) (y >>= g) Q' := by
  intro s t hst
  obtain ⟨h1, h2⟩ := hx s t hst
  rw [M.bind_apply, M.bind_apply]
  rcases hs : x s with ⟨r, s'⟩
  rcases ht : y t with ⟨r', t'⟩
  rw [hs, ht] at h1 h2
  simp only at h1 h2
  cases h1 with
  | ok h => exact hf _ _ h s' t' h2
  | error e => exact ⟨.error e, h2⟩

theorem pure {Q : α → β → Prop} {a : α} {b : β} (h : Q a b) : Both W (pure a) (pure b) Q := fun _ _ hst => ⟨.ok h, hst⟩

theorem throw {Q : α → β → Prop} (e : PyErr) : Both W (M.throw e) (M.throw e) Q := fun _ _ hst => ⟨.error e, hst⟩

theorem attempt {x : DM α} {y : DM β} {Q : α → β → Prop} (h : Both W x y Q) : Both W (M.attempt x) (M.attempt y) (Agree Q) := fun s t hst => by
  obtain ⟨h1, h2⟩ := h s t hst
  exact ⟨.ok h1, h2⟩

theorem weaken {x : DM α} {y : DM β} {Q Q' : α → β → Prop} (h : Both W x y Q) (hq : ∀ a b, Q a b → Q' a b) : Both W x y Q' := fun s t hst => by
  obtain ⟨h1, h2⟩ := h s t hst
  exact ⟨h1.imp hq, h2⟩

theorem forEach {f : γ → DM Unit} (xs : List γ) (h : ∀ x ∈ xs, Both W (f x) (f x) (fun _ _ => True)) : Both W (M.forEach f xs) (M.forEach f xs) (fun _ _ => True) := by
  induction xs with
  | nil => exact pure trivial
  | cons x xs ih => exact bind (h x (by simp)) fun _ _ _ => ih fun y hy => h y (by simp [hy])

end Both

section
variable {P : Nat → Prop} {env : Env} {R : Addr → Addr → Prop}

theorem Mirror.files {s t : DState} (m : Mirror P env R s t) (st tl bl) :
    Mirror P env R { s with store := st, tlinks := tl, blinks := bl } { t with store := st, tlinks := tl, blinks := bl } :=
  ⟨rfl, rfl, rfl, m.reg, m.alike, m.one, m.memo, m.inv, m.cls⟩

theorem Mirror.eq {s t : DState} (m : Mirror P env R s t) : t = { heap := t.heap, memo := t.memo, store := s.store, tlinks := s.tlinks, blinks := s.blinks, reg := s.reg } := by
  obtain ⟨h1, h2, h3, h4, _⟩ := m
  cases t; simp_all

theorem mkDset_both {kw p name d} : Both (Mirror P env R) (mkDset kw p name d) (mkDset kw p name d) Eq := by
  intro s t m
  unfold mkDset
  rw [m.store]
  cases checkKw kw d with
  | error e => exact ⟨.error e, m⟩
  | ok =>
    simp only []
    cases s.store.create p name (.dset d) with
    | error e => exact ⟨.error e, m⟩
    | ok r => exact ⟨.ok rfl, ⟨rfl, m.tl, m.bl, m.reg, m.alike, m.one, m.memo, m.inv, m.cls⟩⟩

theorem mkGroup_both {p name} : Both (Mirror P env R) (mkGroup p name) (mkGroup p name) Eq := by
  intro s t m
  unfold mkGroup
  rw [m.store]
  cases s.store.create p name (.group []) with
  | error e => exact ⟨.error e, m⟩
  | ok r => exact ⟨.ok rfl, ⟨rfl, m.tl, m.bl, m.reg, m.alike, m.one, m.memo, m.inv, m.cls⟩⟩

theorem setAttr_both {n k v} : Both (Mirror P env R) (setAttr n k v) (setAttr n k v) (fun _ _ => True) := by
  intro s t m
  exact ⟨.ok trivial, ⟨by show t.store.setAttr n k v = s.store.setAttr n k v; rw [m.store], m.tl, m.bl, m.reg, m.alike, m.one, m.memo, m.inv, m.cls⟩⟩

theorem setAttrs_both {n l} : Both (Mirror P env R) (setAttrs n l) (setAttrs n l) (fun _ _ => True) := .forEach _ fun _ _ => setAttr_both

/-- node and sub items -/
def NodeSubs (h h' : Heap) (R : Addr → Addr → Prop) (x y : NodeId × Subs) : Prop := x.1 = y.1 ∧ All2 (SubAlike h h' R) x.2 y.2

variable {h h' : Heap}

theorem pure_nil {n : NodeId} : Both (Mirror P env R) (pure (n, [])) (pure (n, [])) (NodeSubs h h' R) := .pure ⟨rfl, .nil⟩

theorem createItems_both {c : DCtx} (H : Alike c.env h h' R) {xs ys : List Addr} (a : ItemsAlike h h' R xs ys) {dt : Option ItemDT}
    (hd : checkItems c.env h xs = .ok dt) {p name} : Both (Mirror P env R) (createItems c h xs dt p name) (createItems c h' ys dt p name) (NodeSubs h h' R) := by
  have hlen : xs.length = ys.length := by
    rcases a with a | ⟨vs, ws, d, h1, h2, _, _, h3⟩
    · exact a.length
    · have := congrArg List.length h3
      simp only [List.length_map] at this
      rw [h1.length, h2.length, this]
  unfold createItems
  cases dt with
  | none =>
    rcases a with a | ⟨vs, ws, d, h1, h2, h3, h4, h5⟩
    · simp only [hlen]
      exact .bind mkGroup_both fun n m e => by subst e; exact .bind setAttr_both fun _ _ _ => .pure ⟨rfl, listSubs_alike a 0⟩
    · rw [NumAt.check h1 h3] at hd; simp at hd
  | some dt =>
    cases dt with
    | bytes => exact .throw _
    | num d =>
      have hc : castPrefix h d xs = castPrefix h' d ys := by
        rcases a with a | ⟨vs, ws, d', h1, h2, h3, h4, h5⟩
        · exact H.casts a d
        · rw [NumAt.check h1 h3] at hd
          simp at hd; subst hd
          rw [NumAt.casts h1, NumAt.casts h2, h5]
      simp only [hc, hlen]
      refine .bind mkDset_both fun n m e => ?_
      subst e
      split
      · exact pure_nil
      · exact .throw _

theorem ItemsAlike.check (H : Alike env h h' R) {xs ys : List Addr} (a : ItemsAlike h h' R xs ys) : checkItems env h xs = checkItems env h' ys := by
  rcases a with a | ⟨vs, ws, d, h1, h2, h3, h4, h5⟩
  · exact H.check a
  · rw [NumAt.check h1 h3, NumAt.check h2 h4]

theorem ItemsAlike.nil_iff {xs ys : List Addr} (a : ItemsAlike h h' R xs ys) : (xs = [] ∧ ys = []) ∨ (∃ x xs' y ys', xs = x :: xs' ∧ ys = y :: ys') := by
  rcases a with a | ⟨vs, ws, d, h1, h2, h3, h4, h5⟩
  · cases a with
    | nil => exact .inl ⟨rfl, rfl⟩
    | cons => exact .inr ⟨_, _, _, _, rfl, rfl⟩
  · cases h1 with
    | nil => simp [joinDt] at h3
    | cons => cases h2 with
      | nil => simp [joinDt] at h4
      | cons => exact .inr ⟨_, _, _, _, rfl, rfl⟩

/-- the part of `create_listlike_dataset` for sequences -/
theorem seq_both {c : DCtx} (H : Alike c.env h h' R) {xs ys : List Addr} (a : ItemsAlike h h' R xs ys) {cl cl' p name} :
    Both (Mirror P env R) (createListlike c h ⟨cl, .seq xs⟩ p name) (createListlike c h' ⟨cl', .seq ys⟩ p name) (NodeSubs h h' R) := by
  rcases a.nil_iff with ⟨rfl, rfl⟩ | ⟨x, xs', y, ys', rfl, rfl⟩
  · simp only [createListlike]
    exact .bind mkDset_both fun n m e => by subst e; exact pure_nil
  · simp only [createListlike, ← a.check H]
    cases hd : checkItems c.env h (x :: xs') with
    | error e => exact .throw _
    | ok dt => exact createItems_both H a hd

theorem createListlike_both {c : DCtx} (H : Alike c.env h h' R) {cl : Cls} {v v' : Val} (a : ValAlike c.env h h' R v v') {p name} :
    Both (Mirror P env R) (createListlike c h ⟨cl, v⟩ p name) (createListlike c h' ⟨cl, v'⟩ p name) (NodeSubs h h' R) := by
  cases a with
  | seq a => exact seq_both H a
  | set | dict | oarr | sparse => exact .throw _
  | atom ha =>
    unfold createListlike
    cases v with
    | str s =>
      simp only []
      cases utf8Encode s with
      | none => exact .throw _
      | some b => exact .bind mkDset_both fun n m e => by subst e; exact .bind setAttr_both fun _ _ _ => pure_nil
    | bytes b => exact .bind mkDset_both fun n m e => by subst e; exact .bind setAttr_both fun _ _ _ => pure_nil
    | seq => simp [Val.isAtom] at ha
    | _ => exact .throw _

theorem createSetlike_both {c : DCtx} (H : Alike c.env h h' R) {cl : Cls} {v v' : Val} (a : ValAlike c.env h h' R v v') {p name} :
    Both (Mirror P env R) (createSetlike c h ⟨cl, v⟩ p name) (createSetlike c h' ⟨cl, v'⟩ p name) (NodeSubs h h' R) := by
  cases a with
  | seq | dict | oarr | sparse => exact .throw _
  | atom ha =>
    unfold createSetlike
    cases v with
    | set => simp [Val.isAtom] at ha
    | _ => exact .throw _
  | @set xs ys a =>
    rcases a.nil_iff with ⟨rfl, rfl⟩ | ⟨x, xs', y, ys', rfl, rfl⟩
    · simp only [createSetlike]
      exact .bind mkDset_both fun n m e => by subst e; exact pure_nil
    · simp only [createSetlike, ← a.check H]
      cases hd : checkItems c.env h (x :: xs') with
      | error e => exact .throw _
      | ok dt => exact createItems_both H a hd

theorem createDictlike_both {c : DCtx} (H : Alike c.env h h' R) {cl : Cls} {v v' : Val} (a : ValAlike c.env h h' R v v') {p name} :
    Both (Mirror P env R) (createDictlike c h ⟨cl, v⟩ p name) (createDictlike c h' ⟨cl, v'⟩ p name) (NodeSubs h h' R) := by
  cases a with
  | seq | set | oarr | sparse => exact .throw _
  | atom ha =>
    unfold createDictlike
    cases v with
    | dict => simp [Val.isAtom] at ha
    | _ => exact .throw _
  | dict a => exact .bind mkGroup_both fun n m e => by subst e; exact .pure ⟨rfl, dictSubs_alike H a 0⟩

theorem createRows_both {c : DCtx} {n : Nat} {sh : List Nat} {ls ls' : List Leaf} (a : All2 (LeafAlike R) ls ls') {p name} :
    Both (Mirror P env R) (createRows c n sh ls p name) (createRows c n sh ls' p name) (NodeSubs h h' R) := by
  unfold createRows
  rw [a.length]
  split
  · exact .throw _
  · split
    · exact .bind mkDset_both fun n m e => by subst e; exact pure_nil
    · exact .bind mkGroup_both fun n m e => by subst e; exact .bind setAttr_both fun _ _ _ => .pure ⟨rfl, nestSubs_alike sh _ 0 a⟩

theorem addrs_alike {xs ys : List Addr} (a : All2 R xs ys) : All2 (LeafAlike R) (xs.map Leaf.addr) (ys.map Leaf.addr) := by
  induction a with
  | nil => exact .nil
  | cons h1 _ ih => exact .cons h1 ih

theorem objs_alike (os : List Obj) (ho : ∀ o ∈ os, o.val.isAtom = true) : All2 (LeafAlike R) (os.map Leaf.obj) (os.map Leaf.obj) := by
  induction os with
  | nil => exact .nil
  | cons o os ih => exact .cons ⟨rfl, ho o (by simp)⟩ (ih fun x hx => ho x (by simp [hx]))

theorem group_both {p name} {x y : Addr} (hxy : R x y) : Both (Mirror P env R) (mkGroup p name >>= fun n => pure (n, [.ok ⟨ps "data", .addr x, []⟩]))
    (mkGroup p name >>= fun n => pure (n, [.ok ⟨ps "data", .addr y, []⟩])) (NodeSubs h h' R) :=
  .bind mkGroup_both fun n m e => by subst e; exact .pure ⟨rfl, .cons (.ok ⟨rfl, rfl, hxy⟩) .nil⟩

theorem createObjects_both {c : DCtx} (H : Alike c.env h h' R) {shape : List Nat} {xs ys : List Addr} (a : All2 R xs ys) {p name} :
    Both (Mirror P env R) (createObjects c h shape xs p name) (createObjects c h' shape ys p name) (NodeSubs h h' R) := by
  cases shape with
  | nil =>
    cases a with
    | nil => exact .throw _
    | @cons x y _ _ h1 a =>
      cases a with
      | cons => exact .throw _
      | nil =>
        obtain ⟨⟨cl, v⟩, ⟨cl', v'⟩, e1, e2, e3, e4⟩ := H x y h1
        simp only at e3 e4; subst e3
        simp only [createObjects, e1, e2]
        cases e4 with
        | atom ha => cases v <;> first | exact group_both h1 | simp [Val.isAtom] at ha
        | set | dict | oarr | sparse => exact group_both h1
        | seq a =>
          simp only []
          split
          · exact seq_both H a
          · exact group_both h1
  | cons n sh =>
    cases sh with
    | nil => simp only [createObjects]; exact seq_both H (.inl a)
    | cons m sh => simp only [createObjects]; exact createRows_both (addrs_alike a)

theorem createStrings_both {c : DCtx} {shape : List Nat} {data : List PyStr} {p name} :
    Both (Mirror P env R) (createStrings c shape data p name) (createStrings c shape data p name) (NodeSubs h h' R) := by
  cases shape with
  | nil =>
    cases data with
    | nil => exact .throw _
    | cons s data =>
      cases data with
      | cons => exact .throw _
      | nil =>
        simp only [createStrings]
        cases utf8Encode s with
        | none => exact .throw _
        | some b => exact .bind mkDset_both fun n m e => by subst e; exact pure_nil
  | cons n sh =>
    simp only [createStrings]
    refine createRows_both ?_
    have := objs_alike (R := R) (data.map fun s => ⟨.str, .str s⟩) (by simp [Val.isAtom])
    simpa [List.map_map, Function.comp_def] using this

theorem withDtype_both {x y : DM (NodeId × Subs)} {d} (hx : Both (Mirror P env R) x y (NodeSubs h h' R)) : Both (Mirror P env R) (withDtype x d) (withDtype y d) (NodeSubs h h' R) :=
  .bind hx fun a b hab => by
    obtain ⟨n, l⟩ := a
    obtain ⟨m, l'⟩ := b
    obtain ⟨e, hl⟩ := hab
    simp only at e hl; subst e
    exact .bind setAttr_both fun _ _ _ => .pure ⟨rfl, hl⟩

theorem createNpArray_both {c : DCtx} (H : Alike c.env h h' R) {cl : Cls} {v v' : Val} (a : ValAlike c.env h h' R v v') {p name} :
    Both (Mirror P env R) (createNpArray c h ⟨cl, v⟩ p name) (createNpArray c h' ⟨cl, v'⟩ p name) (NodeSubs h h' R) := by
  cases a with
  | seq | set | dict | sparse => exact .throw _
  | oarr a => exact withDtype_both (createObjects_both H a)
  | atom ha =>
    unfold createNpArray
    cases v with
    | oarr => simp [Val.isAtom] at ha
    | arr d shape data => exact withDtype_both (.bind mkDset_both fun n m e => by subst e; exact pure_nil)
    | sarr w shape data => exact withDtype_both createStrings_both
    | _ => exact .throw _

theorem createMasked_both {env' : Env} {cl : Cls} {v v' : Val} (a : ValAlike env' h h' R v v') {p name} :
    Both (Mirror P env R) (createMasked ⟨cl, v⟩ p name) (createMasked ⟨cl, v'⟩ p name) (NodeSubs h h' R) := by
  cases a with
  | seq | set | dict | oarr | sparse => exact .throw _
  | atom ha =>
    unfold createMasked
    cases v with
    | masked d shape data mask =>
      refine .bind mkGroup_both fun n m e => ?_
      subst e
      refine .bind setAttr_both fun _ _ _ => .pure ⟨rfl, .cons (.ok ⟨rfl, rfl, rfl, rfl, .cons ⟨rfl, rfl⟩ .nil⟩) (.cons (.ok ⟨rfl, rfl, rfl, rfl, .cons ⟨rfl, ?_⟩ .nil⟩) .nil)⟩
      cases mask <;> rfl
    | _ => exact .throw _

theorem createSparse_both {env' : Env} {cl : Cls} {v v' : Val} (a : ValAlike env' h h' R v v') {p name} :
    Both (Mirror P env R) (createSparse ⟨cl, v⟩ p name) (createSparse ⟨cl, v'⟩ p name) (NodeSubs h h' R) := by
  cases a with
  | seq | set | dict | oarr => exact .throw _
  | atom ha =>
    unfold createSparse
    cases v with
    | sparse => simp [Val.isAtom] at ha
    | _ => exact .throw _
  | @sparse d i q d' i' q' sh h1 h2 h3 =>
    simp only [createSparse]
    split
    · exact .throw _
    · refine .bind mkGroup_both fun n m e => ?_
      subst e
      refine .pure ⟨rfl, .cons (.ok ⟨rfl, rfl, h1⟩) (.cons (.ok ⟨rfl, rfl, h2⟩) (.cons (.ok ⟨rfl, rfl, h3⟩) (.cons (.ok ⟨rfl, rfl, rfl, rfl, ?_⟩) .nil)))⟩
      have := objs_alike (R := R) (sh.map fun (n : Nat) => ⟨.int, .int n⟩) (by simp [Val.isAtom])
      simpa [List.map_map, Function.comp_def] using this

theorem createPickled_both {c : DCtx} {cl : Cls} {v v' : Val} (a : ValAlike c.env h h' R v v') {p name} :
    Both (Mirror P env R) (createPickled c ⟨cl, v⟩ p name) (createPickled c ⟨cl, v'⟩ p name) Eq := by
  cases a with
  | seq | set | dict | oarr | sparse => exact .throw _
  | atom ha =>
    unfold createPickled
    cases v with
    | «opaque» st b => cases b <;> first | exact mkDset_both | exact .throw _
    | _ => exact .throw _

theorem leaf_both {x y : DM NodeId} (hx : Both (Mirror P env R) x y Eq) : Both (Mirror P env R) (leaf x) (leaf y) (NodeSubs h h' R) :=
  .bind hx fun n m e => by subst e; exact pure_nil

theorem createScalar_both {c : DCtx} {cl : Cls} {v v' : Val} (a : ValAlike c.env h h' R v v') {p name} :
    Both (Mirror P env R) (createScalar c ⟨cl, v⟩ p name) (createScalar c ⟨cl, v'⟩ p name) Eq := by
  cases a with
  | seq | set | dict | oarr | sparse => exact .throw _
  | atom ha =>
    unfold createScalar
    cases v with
    | int i =>
      simp only []
      split
      · split
        · exact mkDset_both
        · exact .throw _
      · exact mkDset_both
    | bool | float | cplx => exact mkDset_both
    | _ => exact .throw _

theorem createNpScalar_both {c : DCtx} {cl : Cls} {v v' : Val} (a : ValAlike c.env h h' R v v') {p name} :
    Both (Mirror P env R) (createNpScalar c ⟨cl, v⟩ p name) (createNpScalar c ⟨cl, v'⟩ p name) Eq := by
  cases a with
  | seq | set | dict | oarr | sparse => exact .throw _
  | atom ha =>
    unfold createNpScalar
    cases v with
    | np v => exact .bind mkDset_both fun n m e => by subst e; exact .bind setAttr_both fun _ _ _ => .pure rfl
    | _ => exact .throw _

theorem createFn_both {c : DCtx} {fn : DumpFn} (H : Alike c.env h h' R) {cl : Cls} {v v' : Val} (a : ValAlike c.env h h' R v v') {p name} :
    Both (Mirror P env R) (createFn c fn h ⟨cl, v⟩ p name) (createFn c fn h' ⟨cl, v'⟩ p name) (NodeSubs h h' R) := by
  cases fn with
  | scalar => exact leaf_both (createScalar_both a)
  | none => exact leaf_both mkDset_both
  | listlike => exact createListlike_both H a
  | setlike => exact createSetlike_both H a
  | dictlike => exact createDictlike_both H a
  | npScalar => exact leaf_both (createNpScalar_both a)
  | npArray => exact createNpArray_both H a
  | npMasked => exact createMasked_both a
  | sparse => exact createSparse_both a
  | pickled => exact leaf_both (createPickled_both a)
  | _ => exact .throw _

/-! ### types table -/

theorem baseEntry_both {c b} : Both (Mirror P env R) (baseEntry c b) (baseEntry c b) Eq := by
  intro s t m
  unfold baseEntry
  rw [M.bind_of_ok (M.get_apply s), M.bind_of_ok (M.get_apply t), m.bl]
  cases Assoc.get? s.blinks b with
  | some n => exact ⟨.ok rfl, m⟩
  | none =>
    have : Both (Mirror P env R) (mkDset (noCompression c.kw) c.table (ps b) (.null "S1") >>= fun n => M.modify (fun s : DState => { s with blinks := Assoc.put s.blinks b n }) >>= fun _ => pure n)
        (mkDset (noCompression c.kw) c.table (ps b) (.null "S1") >>= fun n => M.modify (fun s : DState => { s with blinks := Assoc.put s.blinks b n }) >>= fun _ => pure n) Eq :=
      .bind mkDset_both fun n n' e => by
        subst e
        refine .bind (Q := fun _ _ => True) ?_ fun _ _ _ => .pure rfl
        intro s t m
        exact ⟨.ok trivial, ⟨m.store, m.tl, by show Assoc.put t.blinks b n = _; rw [m.bl]; rfl, m.reg, m.alike, m.one, m.memo, m.inv, m.cls⟩⟩
    exact this s t m

theorem storeType_both {c n cls b} : Both (Mirror P env R) (storeType c n cls b) (storeType c n cls b) (fun _ _ => True) := by
  unfold storeType
  split
  · exact .pure trivial
  · refine .bind (Q := Eq) ?_ fun e e' he => by subst he; exact setAttr_both
    intro s t m
    unfold typeEntryNode
    rw [M.bind_of_ok (M.get_apply s), M.bind_of_ok (M.get_apply t), m.tl, m.store]
    cases Assoc.get? s.tlinks cls with
    | some n => exact ⟨.ok rfl, m⟩
    | none =>
      simp only []
      by_cases h1 : b.toList = []
      · simp only [h1, if_true]; exact ⟨.error _, m⟩
      · simp only [h1, if_false]
        by_cases h2 : (!clsPicklable c.env cls) = true
        · simp only [h2, if_true]; exact ⟨.error _, m⟩
        · simp only [h2, if_false, Bool.false_eq_true]
          cases s.store.links c.table with
          | none => exact ⟨.error _, m⟩
          | some ls =>
            simp only []
            have : Both (Mirror P env R) (mkDset c.kw c.table (digits ls.length) (.pickleCls cls) >>= fun e => baseEntry c b >>= fun b => setAttr e "base_type" (.ref b) >>= fun _ =>
                  M.modify (fun s : DState => { s with tlinks := Assoc.put s.tlinks cls e }) >>= fun _ => pure e)
                (mkDset c.kw c.table (digits ls.length) (.pickleCls cls) >>= fun e => baseEntry c b >>= fun b => setAttr e "base_type" (.ref b) >>= fun _ =>
                  M.modify (fun s : DState => { s with tlinks := Assoc.put s.tlinks cls e }) >>= fun _ => pure e) Eq :=
              .bind mkDset_both fun e e' he => by
                subst he
                refine .bind baseEntry_both fun b b' hb => ?_
                subst hb
                refine .bind setAttr_both fun _ _ _ => .bind (Q := fun _ _ => True) ?_ fun _ _ _ => .pure rfl
                intro s t m
                exact ⟨.ok trivial, ⟨m.store, by show Assoc.put t.tlinks cls e = _; rw [m.tl]; rfl, m.bl, m.reg, m.alike, m.one, m.memo, m.inv, m.cls⟩⟩
            exact this s t m

end
end Verif
