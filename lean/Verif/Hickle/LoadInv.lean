import Verif.Hickle.DumpInv
import Verif.Hickle.Load
import Verif.Hickle.Spec
/-!
# The invariant of a load

A running load keeps, for every loaded object, track of the object it is a copy of.
-/
namespace Verif

/-! ### element-wise related lists -/

theorem All2.mono {α β : Type} {r r' : α → β → Prop} {xs ys} (h : ∀ x y, r x y → r' x y) (ha : All2 r xs ys) : All2 r' xs ys := by
  induction ha with
  | nil => exact .nil
  | cons h1 _ ih => exact .cons (h _ _ h1) ih

theorem All2.mem {α β : Type} {r : α → β → Prop} {xs ys} (ha : All2 r xs ys) {x} (hx : x ∈ xs) : ∃ y ∈ ys, r x y := by
  induction ha with
  | nil => simp at hx
  | cons h1 _ ih =>
    rcases List.mem_cons.1 hx with rfl | hx
    · exact ⟨_, by simp, h1⟩
    · obtain ⟨y, hy, hr⟩ := ih hx; exact ⟨y, by simp [hy], hr⟩

theorem All2.right {α β : Type} {r : α → β → Prop} {xs : List α} {ys : List β} (h : All2 r xs ys) {y : β} (hy : y ∈ ys) : ∃ x ∈ xs, r x y := by
  induction h with
  | nil => simp at hy
  | @cons x z xs zs h1 _ ih =>
    rcases List.mem_cons.1 hy with rfl | hy
    · exact ⟨x, by simp, h1⟩
    · obtain ⟨x, e1, e2⟩ := ih hy
      exact ⟨x, by simp [e1], e2⟩

theorem All2.append {α β : Type} {r : α → β → Prop} {xs ys xs' ys'} (ha : All2 r xs ys) (hb : All2 r xs' ys') :
    All2 r (xs ++ xs') (ys ++ ys') := by
  induction ha with
  | nil => exact hb
  | cons h1 _ ih => exact .cons h1 ih

theorem All2.length {α β : Type} {r : α → β → Prop} {xs ys} (ha : All2 r xs ys) : xs.length = ys.length := by
  induction ha with
  | nil => rfl
  | cons _ _ ih => simp [ih]

theorem All2.of_getElem {α β : Type} {r : α → β → Prop} (xs : List α) (ys : List β) (hl : xs.length = ys.length)
    (h : ∀ (i : Nat) x y, xs[i]? = some x → ys[i]? = some y → r x y) : All2 r xs ys := by
  induction xs generalizing ys with
  | nil => cases ys with
    | nil => exact .nil
    | cons => simp at hl
  | cons x xs ih => cases ys with
    | nil => simp at hl
    | cons y ys =>
      refine .cons (h 0 x y rfl rfl) (ih ys (by simpa using hl) fun i a b ha hb => h (i + 1) a b ?_ ?_)
      · simpa using ha
      · simpa using hb

/-! ### views of copies -/

mutual
/-- equal views up to the identity of NaN and opaque objects -/
def KV.rel (T : Addr → Addr → Prop) : KV → KV → Prop
  | .none, .none => True
  | .num v, .num w => v = w
  | .nan x, .nan a => T x a
  | .str s, .str t => s = t
  | .bytes s, .bytes t => s = t
  | .opaque x s, .opaque a t => T x a ∧ s = t
  | .tup l, .tup l' => KV.rels T l l'
  | _, _ => False
def KV.rels (T : Addr → Addr → Prop) : List KV → List KV → Prop
  | [], [] => True
  | x :: xs, y :: ys => KV.rel T x y ∧ KV.rels T xs ys
  | _, _ => False
end

mutual
theorem KV.eqv_of_rel {T : Addr → Addr → Prop} (hT : ∀ x a a', T x a → T x a' → a = a') {oeq : Nat → Nat → Bool} :
    ∀ v' w' v w : KV, KV.rel T v' v → KV.rel T w' w → KV.eqv oeq v' w' = true → KV.eqv oeq v w = true
  | .none, w', v, w, h1, h2, h => by
    cases w' <;> simp only [KV.eqv] at h <;> try (exact absurd h (by decide))
    cases v <;> simp only [KV.rel] at h1
    cases w <;> simp only [KV.rel] at h2
    rfl
  | .num a, w', v, w, h1, h2, h => by
    cases w' <;> simp only [KV.eqv] at h <;> try (exact absurd h (by decide))
    cases v <;> simp only [KV.rel] at h1
    cases w <;> simp only [KV.rel] at h2
    simp only [KV.eqv]; rw [← h1, ← h2]; exact h
  | .nan x, w', v, w, h1, h2, h => by
    cases w' <;> simp only [KV.eqv] at h <;> try (exact absurd h (by decide))
    cases v <;> simp only [KV.rel] at h1
    cases w <;> simp only [KV.rel] at h2
    simp only [decide_eq_true_eq] at h; subst h
    simp only [KV.eqv, decide_eq_true_eq]; exact hT _ _ _ h1 h2
  | .str s, w', v, w, h1, h2, h => by
    cases w' <;> simp only [KV.eqv] at h <;> try (exact absurd h (by decide))
    cases v <;> simp only [KV.rel] at h1
    cases w <;> simp only [KV.rel] at h2
    simp only [KV.eqv]; rw [← h1, ← h2]; exact h
  | .bytes s, w', v, w, h1, h2, h => by
    cases w' <;> simp only [KV.eqv] at h <;> try (exact absurd h (by decide))
    cases v <;> simp only [KV.rel] at h1
    cases w <;> simp only [KV.rel] at h2
    simp only [KV.eqv]; rw [← h1, ← h2]; exact h
  | .opaque x s, w', v, w, h1, h2, h => by
    cases w' <;> simp only [KV.eqv] at h <;> try (exact absurd h (by decide))
    cases v <;> simp only [KV.rel] at h1
    cases w <;> simp only [KV.rel] at h2
    obtain ⟨h1, rfl⟩ := h1
    obtain ⟨h2, rfl⟩ := h2
    simp only [KV.eqv, Bool.or_eq_true, decide_eq_true_eq] at h ⊢
    rcases h with h | h
    · subst h; exact .inl (hT _ _ _ h1 h2)
    · exact .inr h
  | .tup l, w', v, w, h1, h2, h => by
    cases w' <;> simp only [KV.eqv] at h <;> try (exact absurd h (by decide))
    cases v <;> simp only [KV.rel] at h1
    cases w <;> simp only [KV.rel] at h2
    simp only [KV.eqv]
    exact KV.eqvs_of_rels hT _ _ _ _ h1 h2 h
theorem KV.eqvs_of_rels {T : Addr → Addr → Prop} (hT : ∀ x a a', T x a → T x a' → a = a') {oeq : Nat → Nat → Bool} :
    ∀ v' w' v w : List KV, KV.rels T v' v → KV.rels T w' w → KV.eqvs oeq v' w' = true → KV.eqvs oeq v w = true
  | [], w', v, w, h1, h2, h => by
    cases w' <;> simp only [KV.eqvs] at h <;> try (exact absurd h (by decide))
    cases v <;> simp only [KV.rels] at h1
    cases w <;> simp only [KV.rels] at h2
    rfl
  | x :: xs, w', v, w, h1, h2, h => by
    cases w' <;> simp only [KV.eqvs] at h <;> try (exact absurd h (by decide))
    cases v <;> simp only [KV.rels] at h1
    cases w <;> simp only [KV.rels] at h2
    simp only [KV.eqvs, Bool.and_eq_true] at h ⊢
    exact ⟨KV.eqv_of_rel hT _ _ _ _ h1.1 h2.1 h.1, KV.eqvs_of_rels hT _ _ _ _ h1.2 h2.2 h.2⟩
end

theorem exactNum_num {o : Obj} {v : NpVal} (h : exactNum o = some v) : o.val.num? = some v := by
  obtain ⟨c, val⟩ := o
  unfold exactNum at h
  split at h <;> simp_all [Val.num?]

/-- views grow with the heap and the fuel -/
theorem keyView_mono {u : Nat → UserCls} {H H' : Heap} (hp : H <+: H') {f f' : Nat} (hf : f ≤ f') {a : Addr} {v : KV}
    (h : keyView u H f a = some v) : keyView u H' f' a = some v := by
  induction f generalizing f' a v with
  | zero => simp [keyView] at h
  | succ f ih =>
    obtain ⟨f', rfl⟩ : ∃ g, f' = g + 1 := ⟨f' - 1, by omega⟩
    simp only [keyView] at h ⊢
    cases ho : H[a]? with
    | none => simp [ho] at h
    | some o =>
      rw [getElem?_prefix hp ho]
      simp only [ho] at h ⊢
      have hm : ∀ items : List Addr, ∀ l, items.mapM (keyView u H f) = some l → items.mapM (keyView u H' f') = some l := by
        intro items
        induction items with
        | nil => intro l h; simpa using h
        | cons i is ihi =>
          intro l h
          simp only [List.mapM_cons, Option.bind_eq_bind, Option.bind_eq_some_iff, Option.pure_def, Option.some.injEq] at h ⊢
          obtain ⟨x, h1, xs, h2, rfl⟩ := h
          exact ⟨x, ih (by omega) h1, xs, ihi _ h2, rfl⟩
      cases hv : o.val <;> simp only [hv] at h ⊢ <;> try exact h
      split at h
      · next hc =>
        simp only [hc, if_true, Option.map_eq_some_iff] at h ⊢
        obtain ⟨l, h1, h2⟩ := h
        exact ⟨l, hm _ l h1, h2⟩
      · simp at h

/-- children come before their parents -/
def Below (L : Heap) : Prop := ∀ (x : Addr) (o : Obj), L[x]? = some o → ∀ c ∈ o.val.children, c < x

theorem keyView_stable {u : Nat → UserCls} {L : Heap} (hb : Below L) {f f' : Nat} {x : Addr} (h1 : x < f) (h2 : x < f') :
    keyView u L f x = keyView u L f' x := by
  induction f generalizing f' x with
  | zero => omega
  | succ f ih =>
    obtain ⟨f', rfl⟩ : ∃ g, f' = g + 1 := ⟨f' - 1, by omega⟩
    simp only [keyView]
    cases ho : L[x]? with
    | none => rfl
    | some o =>
      simp only
      cases hv : o.val <;> simp only
      case seq items =>
        have hm : ∀ l : List Addr, (∀ c ∈ l, c < x) → l.mapM (keyView u L f) = l.mapM (keyView u L f') := by
          intro l
          induction l with
          | nil => intro _; rfl
          | cons i is ihi =>
            intro hl
            rw [List.mapM_cons, List.mapM_cons, ihi (fun c hc => hl c (by simp [hc])),
              ih (f' := f') (x := i) (by have := hl i (by simp); omega) (by have := hl i (by simp); omega)]
        rw [hm items (fun c hc => hb x o ho c (by rw [hv]; exact hc))]

theorem Obj.nameKey_atom {o : Obj} (h : o.nameKey = true) : o.val.isAtom = true := by
  obtain ⟨cl, v⟩ := o
  cases cl <;> cases v <;> first | rfl | simp [Obj.nameKey, Obj.plainKey] at h

/-! ### ghost state -/

/-- which loaded object is a copy of which object -/
structure Ghost where
  R : Addr → Addr → Prop
  N : DT → Addr → Addr → Prop
  Q : Addr → Addr → Prop

def Ghost.T (G : Ghost) : Addr → Addr → Prop := fun x a => G.R x a ∨ (∃ d, G.N d x a) ∨ G.Q x a

structure Ghost.Le (G G' : Ghost) : Prop where
  R : ∀ x a, G.R x a → G'.R x a
  N : ∀ d x a, G.N d x a → G'.N d x a
  Q : ∀ x a, G.Q x a → G'.Q x a

theorem Ghost.Le.refl (G : Ghost) : G.Le G := ⟨fun _ _ h => h, fun _ _ _ h => h, fun _ _ h => h⟩
theorem Ghost.Le.trans {a b c : Ghost} (h1 : a.Le b) (h2 : b.Le c) : a.Le c :=
  ⟨fun _ _ h => h2.R _ _ (h1.R _ _ h), fun _ _ _ h => h2.N _ _ _ (h1.N _ _ _ h), fun _ _ h => h2.Q _ _ (h1.Q _ _ h)⟩
theorem Ghost.Le.T {G G' : Ghost} (h : G.Le G') {x a} (ht : G.T x a) : G'.T x a := by
  rcases ht with h1 | ⟨d, h1⟩ | h1
  · exact .inl (h.R _ _ h1)
  · exact .inr (.inl ⟨d, h.N _ _ _ h1⟩)
  · exact .inr (.inr (h.Q _ _ h1))

theorem ItemsCopy.mono {H : Heap} {G G' : Ghost} (h : G.Le G') {xs as} (hc : ItemsCopy H G.R G.N xs as) : ItemsCopy H G'.R G'.N xs as := by
  rcases hc with ⟨hc, h2⟩ | ⟨d, h2, hc⟩
  · exact .inl ⟨hc.mono h.R, h2⟩
  · exact .inr ⟨d, h2, hc.mono (h.N d)⟩

theorem ValCopy.mono {H : Heap} {G G' : Ghost} (h : G.Le G') {v' v} (hc : ValCopy H G.R G.N G.Q v' v) : ValCopy H G'.R G'.N G'.Q v' v := by
  cases hc with
  | atom h1 => exact .atom h1
  | seq h1 => exact .seq (h1.mono h)
  | set h1 h2 => exact .set (h1.mono h) h2
  | dict h1 =>
    refine .dict (h1.mono ?_)
    rintro e' e (⟨h1, h2⟩ | ⟨h1, h2⟩)
    · exact .inl ⟨h.Q _ _ h1, h.R _ _ h2⟩
    · exact .inr ⟨h1, h2.mono h⟩
  | oarr h1 => exact .oarr (h1.mono h.R)
  | sparse h1 h2 h3 => exact .sparse (h.R _ _ h1) (h.R _ _ h2) (h.R _ _ h3)

/-- every child of a copy is related to something -/
theorem ValCopy.children {H : Heap} {G : Ghost} {v' v} (hc : ValCopy H G.R G.N G.Q v' v) : ∀ x ∈ v'.children, ∃ a, G.T x a := by
  have hi : ∀ {xs as}, ItemsCopy H G.R G.N xs as → ∀ x ∈ xs, ∃ a, G.T x a := by
    intro xs as h x hx
    rcases h with ⟨h, _⟩ | ⟨d, _, h⟩
    · obtain ⟨a, _, hr⟩ := h.mem hx; exact ⟨a, .inl hr⟩
    · obtain ⟨a, _, hr⟩ := h.mem hx; exact ⟨a, .inr (.inl ⟨d, hr⟩)⟩
  cases hc with
  | atom h1 => intro x hx; cases v' <;> simp [Val.isAtom, Val.children] at h1 hx
  | seq h1 => exact hi h1
  | set h1 h2 => exact hi h1
  | dict h1 =>
    intro x hx
    simp only [Val.children, List.mem_flatMap] at hx
    obtain ⟨e', he, hx⟩ := hx
    obtain ⟨e, _, hr⟩ := h1.mem he
    rcases hr with ⟨h1, h2⟩ | ⟨_, h2⟩
    · simp at hx
      rcases hx with rfl | rfl
      · exact ⟨_, .inr (.inr h1)⟩
      · exact ⟨_, .inl h2⟩
    · exact hi h2 x hx
  | oarr h1 =>
    intro x hx
    obtain ⟨a, _, hr⟩ := h1.mem hx; exact ⟨a, .inl hr⟩
  | sparse h1 h2 h3 =>
    intro x hx
    simp only [Val.children, List.mem_cons, List.not_mem_nil, or_false] at hx
    rcases hx with rfl | rfl | rfl
    · exact ⟨_, .inl h1⟩
    · exact ⟨_, .inl h2⟩
    · exact ⟨_, .inl h3⟩

/-! ### copies of instances of missing classes -/

/-- attributes of a recovered object: those of its node, without the class, and with the name of the
base type -/
structure RecAttrs (base : String) (at' at1 : Attrs) : Prop where
  base : Assoc.get? at1 "base_type" = some (.bytes base)
  type : Assoc.get? at1 "type" = none
  rest : ∀ k, k ≠ "type" → k ≠ "base_type" → Assoc.get? at1 k = Assoc.get? at' k

/-- the object a sub item stands for -/
def SubIn (H : Heap) : SubObj → Addr → Prop
  | .addr a, b => b = a
  | .pair k v, p => H[p]? = some ⟨.tuple, .seq [k, v]⟩
  | .nest .., _ => False

/-- a member of a recovered group: the name of the sub item, a copy of its object and, unless that was
recovered itself, its attributes -/
structure RecMember (env : Env) (H : Heap) (R : Addr → Addr → Prop) (m : PyStr × Addr × Option Attrs) (sb : Except PyErr Sub) : Prop where
  intro ::
  ex : ∃ s a q, sb = .ok s ∧ m.1 = s.name ∧ SubIn H s.obj a ∧ R m.2.1 a ∧ H[a]? = some q ∧
    ((m.2.2 = none ∧ q.lost env = true) ∨
     ∃ at1, m.2.2 = some at1 ∧ q.lost env = false ∧ ∀ p ∈ s.attrs, Assoc.get? at1 p.1 = some p.2)

/-- `o'` is what an instance `o` of a missing class is recovered to -/
inductive RecCopy (env : Env) (H : Heap) (R : Addr → Addr → Prop) (o' o : Obj) : Prop
  | pickled {st at1} : o.val = .opaque st true → o' = ⟨.recData, .recData (.pickleObj o.cls st) at1⟩ → RecCopy env H R o' o
  | data {at' at1 d subs} : (expected env o.cls).1 ≠ .object → Head env H (expected env o.cls).2.fn o at' (some d) subs →
      RecAttrs (expected env o.cls).2.base at' at1 → o' = ⟨.recData, .recData d at1⟩ → RecCopy env H R o' o
  | group {at' at1 subs subs' ms} : Head env H (expected env o.cls).2.fn o at' none subs →
      RecAttrs (expected env o.cls).2.base at' at1 → subs'.Perm subs → All2 (RecMember env H R) ms subs' →
      o' = ⟨.recGroup, .recGroup ms at1⟩ → RecCopy env H R o' o

/-- `o'` is a copy of `o`: of the same class with copies of its parts, or, when the class is missing,
what it is recovered to -/
def CopyOf (env : Env) (H : Heap) (R : Addr → Addr → Prop) (N : DT → Addr → Addr → Prop) (Q : Addr → Addr → Prop) (o' o : Obj) : Prop :=
  (o.lost env = false ∧ o'.cls = o.cls ∧ ValCopy H R N Q o'.val o.val) ∨ (o.lost env = true ∧ RecCopy env H R o' o)

theorem RecMember.mono {env : Env} {H : Heap} {R R' : Addr → Addr → Prop} (h : ∀ x a, R x a → R' x a) {m sb} (hm : RecMember env H R m sb) :
    RecMember env H R' m sb := by
  obtain ⟨s, a, q, h1, h2, h3, h4, h5⟩ := hm.ex
  exact ⟨s, a, q, h1, h2, h3, h _ _ h4, h5⟩

theorem RecCopy.mono {env : Env} {H : Heap} {R R' : Addr → Addr → Prop} (h : ∀ x a, R x a → R' x a) {o' o} (hc : RecCopy env H R o' o) :
    RecCopy env H R' o' o := by
  cases hc with
  | pickled h1 h2 => exact .pickled h1 h2
  | data h1 h2 h3 h4 => exact .data h1 h2 h3 h4
  | group h1 h2 h3 h4 h5 => exact .group h1 h2 h3 (h4.mono fun _ _ hm => hm.mono h) h5

theorem CopyOf.mono {env : Env} {H : Heap} {G G' : Ghost} (h : G.Le G') {o' o} (hc : CopyOf env H G.R G.N G.Q o' o) : CopyOf env H G'.R G'.N G'.Q o' o := by
  rcases hc with ⟨h1, h2, h3⟩ | ⟨h1, h2⟩
  · exact .inl ⟨h1, h2, h3.mono h⟩
  · exact .inr ⟨h1, h2.mono h.R⟩

theorem CopyOf.live {env : Env} {H : Heap} {R N Q} {o' o : Obj} (hc : CopyOf env H R N Q o' o) (hl : o.lost env = false) :
    o'.cls = o.cls ∧ ValCopy H R N Q o'.val o.val := by
  rcases hc with ⟨_, h2⟩ | ⟨h1, _⟩
  · exact h2
  · rw [hl] at h1; simp at h1

theorem CopyOf.children {env : Env} {H : Heap} {G : Ghost} {o' o} (hc : CopyOf env H G.R G.N G.Q o' o) : ∀ x ∈ o'.val.children, ∃ a, G.T x a := by
  rcases hc with ⟨_, _, h3⟩ | ⟨_, h2⟩
  · exact h3.children
  · cases h2 with
    | pickled _ h2 => subst h2; intro x hx; simp [Val.children] at hx
    | data _ _ _ h2 => subst h2; intro x hx; simp [Val.children] at hx
    | group _ _ _ h4 h5 =>
      subst h5
      intro x hx
      simp only [Val.children, List.mem_map] at hx
      obtain ⟨m, hm, rfl⟩ := hx
      obtain ⟨sb, _, hr⟩ := h4.mem hm
      obtain ⟨s, a, q, _, _, _, h, _⟩ := hr.ex
      exact ⟨a, .inl h⟩

/-- what the type information of an entry resolves to -/
def typeInfo (env : Env) (cls : Cls) : TypeInfo :=
  if clsImportable env cls then .known cls (expected env cls).2.base else .lost (expected env cls).2.base

theorem lost_iff {env : Env} {o : Obj} : o.lost env = !clsImportable env o.cls := by
  obtain ⟨cl, v⟩ := o
  cases cl <;> rfl

/-- the empty tuple -/
def unitObj : Obj := ⟨.tuple, .seq []⟩

/-- what stays fixed while a dumped file is loaded: `H` the dumped objects, `W` the (node, object)
pairs of the dump -/
structure LHyp (P : Nat → Prop) (base : Nat) (H : Heap) (W : Rel) (rk : Addr → Nat) (c : LCtx) : Prop where
  env : EnvOk P c.env
  mgr : c.mgr.Ok
  order : ∀ l, (c.order l).Perm l
  good : GoodGraph P c.env H
  nodes : ∀ n a, W n a → NodeOk c.env base H c.store W n a
  uniq : ∀ n a a', W n a → W n a' → a = a'
  one : ∀ n n' a o, W n a → W n' a → H[a]? = some o → (expected c.env o.cls).2.memoise = true → n = n'
  ranked : Ranked H rk
  pairs : ∀ (d p k v : Addr) cl es, H[d]? = some ⟨cl, .dict es⟩ → (k, v) ∈ es → base ≤ p →
    H[p]? = some ⟨.tuple, .seq [k, v]⟩ → rk p < rk d
  nests : ∀ (d p : Addr) (o : Obj) cl sh ls, H[d]? = some o → o.val.isTemp = false → NestOf o.val cl sh ls → Nested base H cl sh ls p → rk p < rk d

/-- invariant of a running load -/
structure LInv (P : Nat → Prop) (H : Heap) (W : Rel) (c : LCtx) (G : Ghost) (s : LState) : Prop where
  zero : s.heap[0]? = some unitObj
  lt : ∀ x a, G.T x a → x < s.heap.length
  func : ∀ x a a', G.T x a → G.T x a' → a = a'
  exact : ∀ x a, G.R x a → ∃ o o', H[a]? = some o ∧ s.heap[x]? = some o' ∧ CopyOf c.env H G.R G.N G.Q o' o
  num : ∀ d x a, G.N d x a → ∃ o o', H[a]? = some o ∧ s.heap[x]? = some o' ∧ SameNum d o o'
  key : ∀ x a, G.Q x a → ∃ o, H[a]? = some o ∧ s.heap[x]? = some o ∧ o.nameKey = true
  unitR : ∀ (a : Addr), H[a]? = some unitObj → G.R 0 a
  unit0 : ∀ (x a : Addr), G.R x a → H[a]? = some unitObj → x = 0
  memo : ∀ n x, Assoc.get? s.memo n = some x → ∃ a, W n a ∧ G.R x a
  tc : ∀ e ti cls, Assoc.get? s.tcache e = some ti → EntryOk c.env c.store cls e → ti = typeInfo c.env cls
  reg : RegInv P s.reg
  below : Below s.heap
  all : ∀ x < s.heap.length, x = 0 ∨ ∃ a, G.T x a

/-- objects with an identity are found again through the memo -/
def Shared (H : Heap) (W : Rel) (G : Ghost) (s : LState) : Prop :=
  ∀ x a o, G.R x a → H[a]? = some o → o.val.hasIdentity = true → o ≠ unitObj → ∃ n, W n a ∧ Assoc.get? s.memo n = some x

variable {P : Nat → Prop} {base : Nat} {H : Heap} {W : Rel} {rk : Addr → Nat} {c : LCtx}

/-- a copy of an object whose class exists -/
theorem LInv.live {G : Ghost} {s : LState} (h : LInv P H W c G s) {x a : Addr} {o : Obj} (hR : G.R x a) (ho : H[a]? = some o)
    (hl : o.lost c.env = false) : ∃ o', s.heap[x]? = some o' ∧ o'.cls = o.cls ∧ ValCopy H G.R G.N G.Q o'.val o.val := by
  obtain ⟨o1, o', h1, h2, h3⟩ := h.exact x a hR
  rw [ho] at h1; simp at h1; subst h1
  exact ⟨o', h2, h3.live hl⟩

theorem Live.child {env : Env} {H : Heap} {a b : Addr} {o : Obj} (h : Live env H a) (ho : H[a]? = some o) (hb : b ∈ o.val.children) :
    Live env H b := by
  intro y q hr hq
  refine h y q ?_ hq
  clear hq
  induction hr with
  | here => exact .into .here ho hb
  | into _ h2 h3 ih => exact .into ih h2 h3

/-- a number that converts to `d` without loss -/
def FitsAt (H : Heap) (d : DT) (a : Addr) : Prop := ∀ o v, H[a]? = some o → exactNum o = some v → v.Fits d

/-- `x` is a copy of `a`, with the same value if it is a number -/
def Ghost.X (G : Ghost) (H : Heap) : Addr → Addr → Prop := fun x a => G.R x a ∨ (∃ d, G.N d x a ∧ FitsAt H d a) ∨ G.Q x a

theorem Ghost.X.T {G : Ghost} {x a : Addr} (h : G.X H x a) : G.T x a := by
  rcases h with h | ⟨d, h, _⟩ | h
  · exact .inl h
  · exact .inr (.inl ⟨d, h⟩)
  · exact .inr (.inr h)

theorem NumsOk.fits {items : List Addr} (h : NumsOk H items) {d : DT} (hall : ∀ a ∈ items, numDt H a ≠ none)
    (hd : ∃ a ∈ items, numDt H a = some d) {a : Addr} (ha : a ∈ items) : FitsAt H d a := by
  obtain ⟨b, hb, hbd⟩ := hd
  rintro o v ho hv x rfl hne
  cases hq : H[b]? with
  | none => simp [numDt, hq] at hbd
  | some q =>
    cases hw : exactNum q with
    | none => simp [numDt, hq, hw] at hbd
    | some w =>
      simp [numDt, hq, hw] at hbd
      refine h hall a ha b hb o q x w ho hq hv hw ?_
      rw [hbd]; exact hne

/-- what is hashed: of classes that exist, and numbers in it keep their value -/
def Hashed (env : Env) (H : Heap) (a : Addr) : Prop := Live env H a ∧ NumsIn H a

theorem Hashed.child {env : Env} {H : Heap} {a b : Addr} {o : Obj} (h : Hashed env H a) (ho : H[a]? = some o) (hb : b ∈ o.val.children) :
    Hashed env H b := by
  refine ⟨h.1.child ho hb, fun y q items hr hq hv => h.2 y q items ?_ hq hv⟩
  clear hq
  induction hr with
  | here => exact .into .here ho hb
  | into _ h2 h3 ih => exact .into ih h2 h3

/-- one level of a view -/
def viewStep (u : Nat → UserCls) (h : Heap) (f : Nat) (a : Addr) (o : Obj) : Option KV :=
  match o.val with
  | .none => some .none
  | .str s => some (.str s)
  | .bytes b => some (.bytes b)
  | .opaque st _ => some (.opaque a st)
  | .seq items => if Cls.tuple ∈ o.cls.mro u then (items.mapM (keyView u h f)).map .tup else Option.none
  | .set _ | .dict _ | .arr .. | .sarr .. | .oarr .. | .masked .. | .sparse .. | .recData .. | .recGroup .. => Option.none
  | v => v.num?.map fun x => KV.ofNum a x.val

theorem keyView_succ {u : Nat → UserCls} {h : Heap} {f : Nat} {a : Addr} {o : Obj} (ho : h[a]? = some o) :
    keyView u h (f + 1) a = viewStep u h f a o := by
  simp only [keyView, ho, viewStep]
  cases o.val <;> rfl

theorem viewStep_num {u : Nat → UserCls} {h : Heap} {f : Nat} {a : Addr} {o : Obj} {v : NpVal} (hv : o.val.num? = some v) :
    viewStep u h f a o = some (KV.ofNum a v.val) := by
  unfold viewStep
  cases ho : o.val <;> rw [ho] at hv <;> simp [Val.num?] at hv ⊢ <;> subst hv <;> rfl

theorem KV.rel_ofNum {T : Addr → Addr → Prop} {x a : Addr} (ht : T x a) (w : XR × XR) : KV.rel T (KV.ofNum x w) (KV.ofNum a w) := by
  unfold KV.ofNum; split
  · exact ht
  · simp only [KV.rel]

theorem viewStep_atom {u : Nat → UserCls} {H L : Heap} {f : Nat} {x a : Addr} {o o' : Obj} {T : Addr → Addr → Prop} (ht : T x a)
    (hval : o'.val = o.val) (ha : o.val.isAtom = true) {v : KV} (hv : viewStep u H f a o = some v) :
    ∃ v', viewStep u L f x o' = some v' ∧ KV.rel T v' v := by
  unfold viewStep at hv ⊢
  rw [hval]
  cases hov : o.val <;> rw [hov] at hv ha <;> simp [Val.isAtom] at ha <;> simp [Val.num?] at hv ⊢ <;>
    (try subst hv) <;> first | exact KV.rel_ofNum ht _ | (simp only [KV.rel, and_true]; try exact ht)

theorem LInv.items_X {G : Ghost} {s : LState} (h : LInv P H W c G s) {xs as : List Addr} (hc : ItemsCopy H G.R G.N xs as)
    (hn : NumsOk H as) : All2 (G.X H) xs as := by
  rcases hc with ⟨hc, _⟩ | ⟨d, hd, hc⟩
  · exact hc.mono fun _ _ h => .inl h
  · have hall : ∀ b ∈ as, numDt H b ≠ none := by
      intro b hb
      obtain ⟨y, _, hy⟩ := hc.right hb
      obtain ⟨o, o', g1, _, v0, w, g2, _⟩ := h.num d y b hy
      simp [numDt, g1, g2]
    exact hc.imp fun y b _ hb hy => .inr (.inl ⟨d, hy, hn.fits hall hd hb⟩)

/-- the view of a copy -/
theorem LInv.view {G : Ghost} {s : LState} (h : LInv P H W c G s) {u : Nat → UserCls} (f : Nat) :
    ∀ x a v, G.X H x a → Hashed c.env H a → keyView u H f a = some v → ∃ v', keyView u s.heap f x = some v' ∧ KV.rel G.T v' v := by
  induction f with
  | zero => intro x a v _ _ hv; simp [keyView] at hv
  | succ f ih =>
    intro x a v ht hlive hv
    have hitems : ∀ {xs as : List Addr}, All2 (G.X H) xs as → (∀ b ∈ as, Hashed c.env H b) → ∀ l, as.mapM (keyView u H f) = some l →
        ∃ l', xs.mapM (keyView u s.heap f) = some l' ∧ KV.rels G.T l' l := by
      intro xs as hc
      induction hc with
      | nil => intro _ l hl; simp at hl; subst hl; exact ⟨[], rfl, trivial⟩
      | @cons y b ys bs h1 h2 ih2 =>
        intro hls l hl
        simp only [List.mapM_cons, Option.bind_eq_bind, Option.bind_eq_some_iff, Option.pure_def, Option.some.injEq] at hl ⊢
        obtain ⟨w, hw, ws, hws, rfl⟩ := hl
        obtain ⟨w', e1, e2⟩ := ih y b w h1 (hls b (by simp)) hw
        obtain ⟨l', e3, e4⟩ := ih2 (fun b hb => hls b (by simp [hb])) ws hws
        exact ⟨w' :: l', ⟨w', e1, l', e3, rfl⟩, e2, e4⟩
    rcases ht with hR | ⟨d, hN, hfit⟩ | hQ
    · obtain ⟨⟨cl, val⟩, ⟨cl', val'⟩, h1, h2, h3⟩ := h.exact x a hR
      obtain ⟨h3, h4⟩ := h3.live (hlive.1 a _ .here h1)
      simp only at h3 h4
      subst h3
      rw [keyView_succ h1] at hv
      rw [keyView_succ h2]
      cases h4 with
      | atom hat => exact viewStep_atom (.inl hR) rfl hat hv
      | @seq xs as hc =>
        simp only [viewStep] at hv ⊢
        split at hv
        · next hm =>
          rw [if_pos hm]
          simp only [Option.map_eq_some_iff] at hv ⊢
          obtain ⟨l, hl, rfl⟩ := hv
          have hc' : All2 (G.X H) xs as := h.items_X hc (hlive.2 a _ as .here h1 rfl)
          obtain ⟨l', e1, e2⟩ := hitems hc' (fun b hb => hlive.child h1 hb) l hl
          exact ⟨_, ⟨l', e1, rfl⟩, by simpa only [KV.rel] using e2⟩
        · simp at hv
      | set => simp [viewStep] at hv
      | dict => simp [viewStep] at hv
      | oarr => simp [viewStep] at hv
      | sparse => simp [viewStep] at hv
    · obtain ⟨o, o', h1, h2, v0, w, e1, e2, _, e3⟩ := h.num d x a hN
      rw [keyView_succ h1, viewStep_num (exactNum_num e1)] at hv
      rw [keyView_succ h2, viewStep_num (v := w) (by rw [e2]; rfl)]
      simp at hv; subst hv
      exact ⟨_, rfl, by rw [e3 (hfit o v0 h1 e1)]; exact KV.rel_ofNum (.inr (.inl ⟨d, hN⟩)) _⟩
    · obtain ⟨o, h1, h2, h3⟩ := h.key x a hQ
      rw [keyView_succ h1] at hv
      rw [keyView_succ h2]
      exact viewStep_atom (.inr (.inr hQ)) rfl (Obj.nameKey_atom h3) hv

theorem LInv.view' {G : Ghost} {s : LState} (h : LInv P H W c G s) {u : Nat → UserCls} {x a : Addr} {v : KV}
    (ht : G.X H x a) (hl : Hashed c.env H a) (hv : Verif.view u H a = some v) : ∃ v', Verif.view u s.heap x = some v' ∧ KV.rel G.T v' v := by
  obtain ⟨v', h1, h2⟩ := h.view (u := u) _ x a v ht hl hv
  refine ⟨v', ?_, h2⟩
  have hx := h.lt x a ht.T
  unfold Verif.view
  rw [← keyView_mono List.prefix_rfl (Nat.le_max_left (H.length + 1) (s.heap.length + 1)) h1]
  exact keyView_stable h.below (by omega) (by omega)

/-- views of copies of distinct objects are distinct -/
theorem LInv.ne {G : Ghost} {s : LState} (h : LInv P H W c G s) {env : Env} {x y a b : Addr} {v w : KV}
    (hx : G.X H x a) (hy : G.X H y b) (ha : Verif.view env.u H a = some v) (hb : Verif.view env.u H b = some w)
    (hla : Hashed c.env H a) (hlb : Hashed c.env H b) (hd : KV.eqv env.opaqueEq v w = false) :
    ∃ v' w', Verif.view env.u s.heap x = some v' ∧ Verif.view env.u s.heap y = some w' ∧ KV.eqv env.opaqueEq v' w' = false := by
  obtain ⟨v', e1, r1⟩ := h.view' (u := env.u) hx hla ha
  obtain ⟨w', e2, r2⟩ := h.view' (u := env.u) hy hlb hb
  refine ⟨v', w', e1, e2, ?_⟩
  cases he : KV.eqv env.opaqueEq v' w' with
  | false => rfl
  | true => rw [KV.eqv_of_rel h.func _ _ _ _ r1 r2 he] at hd; simp at hd

theorem Distinct.perm {env : Env} {H : Heap} {as bs : List Addr} (hp : as.Perm bs) (h : Distinct env H as) : Distinct env H bs := by
  refine ⟨fun b hb => h.1 b (hp.mem_iff.2 hb), ?_⟩
  refine (hp.pairwise_iff ?_).1 h.2
  intro x y hxy v w hv hw
  exact ⟨(hxy w v hw hv).2, (hxy w v hw hv).1⟩

theorem LInv.setAdd {G : Ghost} {s : LState} (h : LInv P H W c G s) {env : Env} {xs : List Addr} {x a : Addr} {bs : List Addr}
    (hxs : All2 (G.X H) xs bs) (hx : G.X H x a) (hd : Distinct env H (bs ++ [a])) (hl : ∀ b ∈ bs ++ [a], Hashed c.env H b) : setAdd env s.heap xs x = .ok (xs ++ [x]) := by
  obtain ⟨v, hv⟩ := Option.isSome_iff_exists.1 (hd.1 a (by simp))
  obtain ⟨v', e1, r1⟩ := h.view' (u := env.u) hx (hl a (by simp)) hv
  unfold Verif.setAdd
  rw [e1]
  simp only []
  rw [if_neg]
  simp only [List.any_eq_true, not_exists, not_and]
  intro y hy
  obtain ⟨b, hb, ht⟩ := hxs.mem hy
  obtain ⟨w, hw⟩ := Option.isSome_iff_exists.1 (hd.1 b (by simp [hb]))
  have hne := (List.pairwise_append.1 hd.2).2.2 b hb a (by simp) w v hw hv
  obtain ⟨w', v2, e2, e3, e4⟩ := h.ne ht hx hw hv (hl b (by simp [hb])) (hl a (by simp)) hne.1
  rw [e1] at e3; simp at e3; subst e3
  rw [e2]; simp [e4]

theorem All2.split {α β : Type} {r : α → β → Prop} {xs ys : List α} {zs : List β} (h : All2 r (xs ++ ys) zs) :
    ∃ z1 z2, zs = z1 ++ z2 ∧ All2 r xs z1 ∧ All2 r ys z2 := by
  induction xs generalizing zs with
  | nil => exact ⟨[], zs, rfl, .nil, h⟩
  | cons x xs ih =>
    cases h with
    | cons h1 h2 =>
      obtain ⟨z1, z2, rfl, a, b⟩ := ih h2
      exact ⟨_ :: z1, z2, rfl, .cons h1 a, b⟩

theorem LInv.setOf {G : Ghost} {s : LState} (h : LInv P H W c G s) {env : Env} {ys : List Addr} {bs : List Addr} (xs as : List Addr)
    (hx : All2 (G.X H) xs as) (hy : All2 (G.X H) ys bs) (hd : Distinct env H (as ++ bs)) (hl : ∀ b ∈ as ++ bs, Hashed c.env H b) :
    setOf env s.heap xs ys = .ok (xs ++ ys) := by
  induction hy generalizing xs as with
  | nil => simp [Verif.setOf]
  | @cons y b ys bs h1 h2 ih =>
    simp only [Verif.setOf]
    have hd' : Distinct env H (as ++ [b]) :=
      ⟨fun a ha => hd.1 a (by simp at ha ⊢; rcases ha with ha | ha <;> simp [ha]),
       hd.2.sublist (by simp)⟩
    have hl' : ∀ q ∈ as ++ [b], Hashed c.env H q := fun q hq => hl q (by
      simp only [List.mem_append, List.mem_cons, List.not_mem_nil, or_false] at hq ⊢; exact hq.imp id .inl)
    rw [h.setAdd hx h1 hd' hl']
    simp only []
    rw [ih (xs ++ [y]) (as ++ [b]) (hx.append (.cons h1 .nil)) (by simpa using hd) (by simpa using hl)]
    simp

theorem LInv.dictOf {G : Ghost} {s : LState} (h : LInv P H W c G s) {env : Env} {ys : List (Addr × Addr)} {bs : List Addr}
    (xs : List (Addr × Addr)) (as : List Addr)
    (hx : All2 (G.X H) (xs.map Prod.fst) as) (hy : All2 (fun (e : Addr × Addr) b => G.X H e.1 b) ys bs) (hd : Distinct env H (as ++ bs))
    (hl : ∀ b ∈ as ++ bs, Hashed c.env H b) : dictOf env s.heap xs ys = .ok (xs ++ ys) := by
  induction hy generalizing xs as with
  | nil => simp [Verif.dictOf]
  | @cons y b ys bs h1 h2 ih =>
    obtain ⟨k, v⟩ := y
    simp only at h1
    simp only [Verif.dictOf]
    have hd' : Distinct env H (as ++ [b]) :=
      ⟨fun a ha => hd.1 a (by simp at ha ⊢; rcases ha with ha | ha <;> simp [ha]),
       hd.2.sublist (by simp)⟩
    have hl' : ∀ q ∈ as ++ [b], Hashed c.env H q := fun q hq => hl q (by
      simp only [List.mem_append, List.mem_cons, List.not_mem_nil, or_false] at hq ⊢; exact hq.imp id .inl)
    have hput : dictPut env s.heap xs k v = .ok (xs ++ [(k, v)]) := by
      obtain ⟨w, hw⟩ := Option.isSome_iff_exists.1 (hd'.1 b (by simp))
      obtain ⟨w', e1, r1⟩ := h.view' (u := env.u) h1 (hl' b (by simp)) hw
      unfold dictPut
      rw [e1]
      simp only []
      rw [if_neg]
      simp only [List.any_eq_true, not_exists, not_and]
      intro e he
      obtain ⟨b', hb', ht⟩ := hx.mem (List.mem_map_of_mem (f := Prod.fst) he)
      obtain ⟨q, hq⟩ := Option.isSome_iff_exists.1 (hd'.1 b' (by simp [hb']))
      have hne := (List.pairwise_append.1 hd'.2).2.2 b' hb' b (by simp) q w hq hw
      obtain ⟨q', w2, e2, e3, e4⟩ := h.ne ht h1 hq hw (hl' b' (by simp [hb'])) (hl' b (by simp)) hne.1
      rw [e1] at e3; simp at e3; subst e3
      rw [e2]; simp [e4]
    rw [hput]
    simp only []
    rw [ih (xs ++ [(k, v)]) (as ++ [b]) (by simpa using hx.append (.cons h1 .nil)) (by simpa using hd) (by simpa using hl)]
    simp

/-! ### steps -/

theorem getElem?_append_eq {α : Type} {l : List α} {o x : α} {i : Nat} (h : (l ++ [o])[i]? = some x) :
    l[i]? = some x ∨ (i = l.length ∧ x = o) := by
  rw [List.getElem?_append] at h
  split at h
  · exact .inl h
  · next hl =>
    right
    have : i - l.length = 0 := by
      rcases Nat.eq_zero_or_pos (i - l.length) with h0 | h0
      · exact h0
      · rw [List.getElem?_eq_none (by simp; omega)] at h; simp at h
    rw [this] at h; simp at h
    exact ⟨by omega, h.symm⟩

/-- one new object -/
theorem LInv.alloc {G G' : Ghost} {s : LState} (h : LInv P H W c G s) {o' : Obj} {a : Addr} (hle : G.Le G')
    (hR : ∀ y b, G'.R y b → G.R y b ∨ (y = s.heap.length ∧ b = a ∧ ∃ o, H[a]? = some o ∧ o ≠ unitObj ∧
      CopyOf c.env H G'.R G'.N G'.Q o' o))
    (hN : ∀ d y b, G'.N d y b → G.N d y b ∨ (y = s.heap.length ∧ b = a ∧ ∃ o, H[a]? = some o ∧ SameNum d o o'))
    (hQ : ∀ y b, G'.Q y b → G.Q y b ∨ (y = s.heap.length ∧ b = a ∧ H[a]? = some o' ∧ o'.nameKey = true))
    (hch : ∀ x ∈ o'.val.children, x < s.heap.length) (hnew : G'.T s.heap.length a) :
    LInv P H W c G' { s with heap := s.heap ++ [o'] } := by
  have hpre : s.heap <+: s.heap ++ [o'] := List.prefix_append _ _
  have hT : ∀ y b, G'.T y b → G.T y b ∨ (y = s.heap.length ∧ b = a) := by
    rintro y b (h1 | ⟨d, h1⟩ | h1)
    · rcases hR _ _ h1 with h2 | h2
      · exact .inl (.inl h2)
      · exact .inr ⟨h2.1, h2.2.1⟩
    · rcases hN _ _ _ h1 with h2 | h2
      · exact .inl (.inr (.inl ⟨d, h2⟩))
      · exact .inr ⟨h2.1, h2.2.1⟩
    · rcases hQ _ _ h1 with h2 | h2
      · exact .inl (.inr (.inr h2))
      · exact .inr ⟨h2.1, h2.2.1⟩
  have hself : (s.heap ++ [o'])[s.heap.length]? = some o' := by simp
  constructor
  · exact getElem?_prefix hpre h.zero
  · intro x b ht
    simp only [List.length_append, List.length_cons, List.length_nil]
    rcases hT _ _ ht with h1 | h1
    · have := h.lt _ _ h1; omega
    · omega
  · intro x b b' h1 h2
    rcases hT _ _ h1 with k1 | k1 <;> rcases hT _ _ h2 with k2 | k2
    · exact h.func _ _ _ k1 k2
    · have := h.lt _ _ k1; omega
    · have := h.lt _ _ k2; omega
    · rw [k1.2, k2.2]
  · intro x b h1
    rcases hR _ _ h1 with k1 | ⟨rfl, rfl, o, k1, _, k2⟩
    · obtain ⟨o, o1, e1, e2, e3⟩ := h.exact _ _ k1
      exact ⟨o, o1, e1, getElem?_prefix hpre e2, e3.mono hle⟩
    · exact ⟨o, o', k1, hself, k2⟩
  · intro d x b h1
    rcases hN _ _ _ h1 with k1 | ⟨rfl, rfl, o, k1, k2⟩
    · obtain ⟨o, o1, e1, e2, e3⟩ := h.num _ _ _ k1
      exact ⟨o, o1, e1, getElem?_prefix hpre e2, e3⟩
    · exact ⟨o, o', k1, hself, k2⟩
  · intro x b h1
    rcases hQ _ _ h1 with k1 | ⟨rfl, rfl, k1, k2⟩
    · obtain ⟨o, e1, e2, e3⟩ := h.key _ _ k1
      exact ⟨o, e1, getElem?_prefix hpre e2, e3⟩
    · exact ⟨o', k1, hself, k2⟩
  · intro b hb; exact hle.R _ _ (h.unitR b hb)
  · intro x b h1 hb
    rcases hR _ _ h1 with k1 | ⟨rfl, rfl, o, k1, k2, _⟩
    · exact h.unit0 _ _ k1 hb
    · rw [hb] at k1; simp at k1; exact absurd k1.symm k2
  · intro n x hn
    obtain ⟨b, h1, h2⟩ := h.memo n x hn
    exact ⟨b, h1, hle.R _ _ h2⟩
  · exact h.tc
  · exact h.reg
  · intro x o ho y hy
    rcases getElem?_append_eq ho with h1 | ⟨rfl, rfl⟩
    · exact h.below x o h1 y hy
    · exact hch y hy
  · intro x hx
    simp only [List.length_append, List.length_cons, List.length_nil] at hx
    rcases Nat.lt_or_ge x s.heap.length with hl | hl
    · exact (h.all x hl).imp id fun ⟨b, hb⟩ => ⟨b, hle.T hb⟩
    · obtain rfl : x = s.heap.length := by omega
      exact .inr ⟨a, hnew⟩

/-- add the pair (x, a) to `R` -/
def Ghost.addR (G : Ghost) (x a : Addr) : Ghost := { G with R := fun y b => G.R y b ∨ (y = x ∧ b = a) }
def Ghost.addN (G : Ghost) (d : DT) (x a : Addr) : Ghost := { G with N := fun e y b => G.N e y b ∨ (e = d ∧ y = x ∧ b = a) }
def Ghost.addQ (G : Ghost) (x a : Addr) : Ghost := { G with Q := fun y b => G.Q y b ∨ (y = x ∧ b = a) }

theorem Ghost.le_addR (G : Ghost) (x a) : G.Le (G.addR x a) := ⟨fun _ _ h => .inl h, fun _ _ _ h => h, fun _ _ h => h⟩
theorem Ghost.le_addN (G : Ghost) (d x a) : G.Le (G.addN d x a) := ⟨fun _ _ h => h, fun _ _ _ h => .inl h, fun _ _ h => h⟩
theorem Ghost.le_addQ (G : Ghost) (x a) : G.Le (G.addQ x a) := ⟨fun _ _ h => h, fun _ _ _ h => h, fun _ _ h => .inl h⟩

theorem LInv.allocR {G : Ghost} {s : LState} (h : LInv P H W c G s) {o o' : Obj} {a : Addr} (ho : H[a]? = some o)
    (hu : o ≠ unitObj) (hv : CopyOf c.env H G.R G.N G.Q o' o) :
    LInv P H W c (G.addR s.heap.length a) { s with heap := s.heap ++ [o'] } := by
  refine h.alloc (a := a) (G.le_addR _ _) ?_ (fun _ _ _ h => .inl h) (fun _ _ h => .inl h) ?_ (.inl (.inr ⟨rfl, rfl⟩))
  · rintro y b (h1 | ⟨rfl, rfl⟩)
    · exact .inl h1
    · exact .inr ⟨rfl, rfl, o, ho, hu, hv.mono (G.le_addR _ _)⟩
  · intro x hx
    obtain ⟨b, hb⟩ := hv.children x hx
    exact h.lt _ _ hb

theorem LInv.allocN {G : Ghost} {s : LState} (h : LInv P H W c G s) {o o' : Obj} {a : Addr} (ho : H[a]? = some o)
    {d : DT} (hv : SameNum d o o') : LInv P H W c (G.addN d s.heap.length a) { s with heap := s.heap ++ [o'] } := by
  refine h.alloc (a := a) (G.le_addN _ _ _) (fun _ _ h => .inl h) ?_ (fun _ _ h => .inl h) ?_ (.inr (.inl ⟨d, .inr ⟨rfl, rfl, rfl⟩⟩))
  · rintro e y b (h1 | ⟨rfl, rfl, rfl⟩)
    · exact .inl h1
    · exact .inr ⟨rfl, rfl, o, ho, hv⟩
  · obtain ⟨v, w, _, rfl, _⟩ := hv
    intro x hx; simp [Val.children] at hx

theorem LInv.allocQ {G : Ghost} {s : LState} (h : LInv P H W c G s) {o : Obj} {a : Addr} (ho : H[a]? = some o)
    (hv : o.nameKey = true) : LInv P H W c (G.addQ s.heap.length a) { s with heap := s.heap ++ [o] } := by
  refine h.alloc (a := a) (G.le_addQ _ _) (fun _ _ h => .inl h) (fun _ _ _ h => .inl h) ?_ ?_ (.inr (.inr (.inr ⟨rfl, rfl⟩)))
  · rintro y b (h1 | ⟨rfl, rfl⟩)
    · exact .inl h1
    · exact .inr ⟨rfl, rfl, ho, hv⟩
  · intro x hx; have hv := Obj.nameKey_atom hv; cases h : o.val <;> rw [h] at hv hx <;> simp [Val.isAtom, Val.children] at hv hx

/-- several numbers -/
theorem LInv.allocs {G : Ghost} {s : LState} (h : LInv P H W c G s) {os : List Obj} {as : List Addr}
    {d : DT} (hv : All2 (fun o' a => ∃ o, H[a]? = some o ∧ SameNum d o o') os as) :
    ∃ xs G1 s1, lAllocs os s = (.ok xs, s1) ∧ LInv P H W c G1 s1 ∧ G.Le G1 ∧ G1.R = G.R ∧ s.heap <+: s1.heap ∧ s1.memo = s.memo ∧
      All2 (G1.N d) xs as := by
  induction hv generalizing G s with
  | nil => exact ⟨[], G, s, rfl, h, .refl G, rfl, List.prefix_rfl, rfl, .nil⟩
  | @cons o' a os as h1 _ ih =>
    obtain ⟨o, ho, hs⟩ := h1
    obtain ⟨xs, G1, s1, e, i1, l1, r1, p1, m1, a1⟩ := ih (h.allocN ho hs)
    refine ⟨s.heap.length :: xs, G1, s1, ?_, i1, (G.le_addN _ _ _).trans l1, r1, (List.prefix_append _ _).trans p1, m1, ?_⟩
    · simp only [lAllocs]
      rw [M.bind_of_ok (show lAlloc o' s = (.ok s.heap.length, { s with heap := s.heap ++ [o'] }) from rfl), M.bind_of_ok e]
      rfl
    · exact .cons (l1.N _ _ _ (.inr ⟨rfl, rfl, rfl⟩)) a1

/-- the object is remembered -/
theorem LInv.put {G : Ghost} {s : LState} (h : LInv P H W c G s) {n : NodeId} {x a : Addr} (hW : W n a) (hR : G.R x a) :
    LInv P H W c G { s with memo := Assoc.put s.memo n x } :=
  { h with
    memo := by
      intro n' y hn
      rw [Assoc.get?_put] at hn
      split at hn
      · next he => simp at hn; subst hn; rw [← he]; exact ⟨a, hW, hR⟩
      · exact h.memo n' y hn }

end Verif
