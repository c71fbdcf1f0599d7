import Verif.Hickle.CustomSpec
/-!
# What a dump with arbitrary loaders leaves in the file
-/
namespace Verif.Custom

variable {C D V P K : Type}

/-! ### members -/

theorem members_append (g : Nat) (f f' : File C V P) (i : Nat) : members g (f ++ f') i = members g f i ++ members g f' (i + f.length) := by
  induction f generalizing i with
  | nil => simp [members]
  | cons nd f ih =>
    simp only [List.cons_append, members, List.length_cons]
    have e : i + 1 + f.length = i + (f.length + 1) := by omega
    split <;> simp [ih, e]

theorem members_none (g : Nat) (f : File C V P) (i : Nat) (h : ∀ nd ∈ f, nd.parent ≠ some g) : members g f i = [] := by
  induction f generalizing i with
  | nil => rfl
  | cons nd f ih =>
    simp only [members]
    rw [if_neg (h nd (by simp))]
    exact ih _ fun m hm => h m (by simp [hm])

theorem links_append (g : Nat) (f f' : File C V P) : links (f ++ f') g = links f g ++ members g f' f.length := by
  simp [links, members_append]

theorem push_ok {s s' : DState C D V P} {nd : Node C V P} (h : push s nd = .ok s') : s' = { s with file := s.file ++ [nd] } := by
  unfold push at h
  split at h
  · simp at h
  · simpa using h.symm

theorem at_prefix {α : Type} {l l' : List α} (h : l <+: l') {i : Nat} {x : α} (hi : l[i]? = some x) : l'[i]? = some x := by
  obtain ⟨t, rfl⟩ := h
  have : i < l.length := by
    rcases Nat.lt_or_ge i l.length with h | h
    · exact h
    · simp [h] at hi
  rw [List.getElem?_append_left this]; exact hi

theorem lt_of_some {α : Type} {l : List α} {i : Nat} {x : α} (h : l[i]? = some x) : i < l.length := by
  rcases Nat.lt_or_ge i l.length with h' | h'
  · exact h'
  · simp [h'] at h

/-! ### attributes -/

theorem get?_append_left {κ ν : Type} [DecidableEq κ] {l l' : List (κ × ν)} {k : κ} {v : ν} (h : Assoc.get? l k = some v) :
    Assoc.get? (l ++ l') k = some v := by
  induction l with
  | nil => simp at h
  | cons p l ih =>
    obtain ⟨k', v'⟩ := p
    simp only [Assoc.get?, List.cons_append] at h ⊢
    split at h
    · next hk => rw [if_pos hk]; exact h
    · next hk => rw [if_neg hk]; exact ih h

theorem get?_append_right {κ ν : Type} [DecidableEq κ] {l l' : List (κ × ν)} {k : κ} (h : ∀ p ∈ l, p.1 ≠ k) :
    Assoc.get? (l ++ l') k = Assoc.get? l' k := by
  induction l with
  | nil => rfl
  | cons p l ih =>
    obtain ⟨k', v'⟩ := p
    simp only [Assoc.get?, List.cons_append]
    rw [if_neg (h (k', v') (by simp))]
    exact ih fun p hp => h p (by simp [hp])

theorem nodeAttrs_eq {own at' : Attrs V} (h1 : ∀ p ∈ own, p.1 ≠ "type") (h2 : ∀ p ∈ at', p.1 ≠ "type") : nodeAttrs own at' = at' ++ own := by
  unfold nodeAttrs
  refine List.filter_eq_self.2 ?_
  intro p hp
  rcases List.mem_append.1 hp with hp | hp
  · simp [h2 p hp]
  · simp [h1 p hp]

theorem nodeAttrs_sub {isSub : String → Prop} {own at' : Attrs V} (h1 : ∀ p ∈ own, ¬ isSub p.1 ∧ p.1 ≠ "type")
    (h2 : ∀ p ∈ at', isSub p.1 ∧ p.1 ≠ "type") : Agrees at' (nodeAttrs own at') := by
  rw [nodeAttrs_eq (fun p hp => (h1 p hp).2) fun p hp => (h2 p hp).2]
  exact fun n v h => get?_append_left h

theorem nodeAttrs_own {isSub : String → Prop} {own at' : Attrs V} (h1 : ∀ p ∈ own, ¬ isSub p.1 ∧ p.1 ≠ "type")
    (h2 : ∀ p ∈ at', isSub p.1 ∧ p.1 ≠ "type") : Agrees own (nodeAttrs own at') := by
  rw [nodeAttrs_eq (fun p hp => (h1 p hp).2) fun p hp => (h2 p hp).2]
  intro n v h
  rw [get?_append_right]
  · exact h
  · rintro p hp rfl
    exact (h1 _ (Assoc.get?_mem h)).1 (h2 p hp).1

/-! ### the representation of an object -/

/-- node `n` of the file is what `_dump` has made of object `y`, but for the members; `subs` are the sub items -/
def Rep (L : Loaders C D V P K) (shares : C → Prop) (Hf : Heap C D) (file : File C V P) (n y : Nat) (subs : List (Sub V)) : Prop :=
  ∃ (o : Obj C D) (m : Made C D V P) (cls : Option C) (base : String) (attrs : Attrs V) (pa : Option Nat) (na : String),
    Hf[y]? = some o ∧ m.heap <+: Hf ∧ file[n]? = some ⟨pa, na, .obj cls base m.payload attrs⟩ ∧ Agrees m.own attrs ∧
    Restores shares (L.restorer base) (L.clsOf cls) o m ∧ (shares o.cls → (L.entry (L.clsOf cls)).memoise = true) ∧
    m.subs = subs ∧ ∀ sub ∈ subs, Needs L Hf y sub.addr

theorem Needs.mono {L : Loaders C D V P K} {H H' : Heap C D} (hp : H <+: H') {y z} (h : Needs L H y z) : Needs L H' y z := by
  obtain ⟨H0, o, m, h1, h2, h3, h4⟩ := h
  exact ⟨H0, o, m, h1, h2, h3.trans hp, h4⟩

theorem Rep.mono {L : Loaders C D V P K} {shares : C → Prop} {H H' : Heap C D} {f f' : File C V P} (hp : H <+: H') (hf : f <+: f') {n y subs}
    (h : Rep L shares H f n y subs) : Rep L shares H' f' n y subs := by
  obtain ⟨o, m, cls, base, attrs, pa, na, h1, h2, h3, h4, h5, h6, h7, h8⟩ := h
  exact ⟨o, m, cls, base, attrs, pa, na, at_prefix hp h1, h2.trans hp, at_prefix hf h3, h4, h5, h6, h7, fun s hs => (h8 s hs).mono hp⟩

/-- the member of a group that stands for a sub item: the node of the object, or a reference to it -/
def Child (file : File C V P) (W : Nat → Nat → Prop) (l : String × Nat) (sub : Sub V) : Prop :=
  l.1 = sub.name ∧ ∃ nd, file[l.2]? = some nd ∧ Agrees sub.attrs nd.kind.attrs ∧
    (W l.2 sub.addr ∨ ∃ t at', nd.kind = .ref t at' ∧ W t sub.addr)

theorem Child.mono {f f' : File C V P} {W W' : Nat → Nat → Prop} (hf : f <+: f') (hw : ∀ n y, W n y → W' n y) {l} {sub : Sub V} (h : Child f W l sub) :
    Child f' W' l sub := by
  obtain ⟨h1, nd, h2, h3, h4⟩ := h
  refine ⟨h1, nd, at_prefix hf h2, h3, ?_⟩
  rcases h4 with h4 | ⟨t, at', h4, h5⟩
  · exact .inl (hw _ _ h4)
  · exact .inr ⟨t, at', h4, hw _ _ h5⟩

/-- `W` are all pairs of a node and the object it stands for; the members of the nodes in `pend` are still being written -/
structure Inv (L : Loaders C D V P K) (good : Heap C D → Prop) (shares : C → Prop) (W : Nat → Nat → Prop) (pend : List Nat) (s : DState C D V P) : Prop where
  good : good s.heap
  parents : ∀ nd ∈ s.file, ∀ g, nd.parent = some g → g < s.file.length
  memo : ∀ y n, Assoc.get? s.memo y = some n → W n y
  memoised : ∀ (n y : Nat) (o : Obj C D), W n y → s.heap[y]? = some o → (L.entry o.cls).memoise = true → Assoc.get? s.memo y = some n
  fn : ∀ n y y', W n y → W n y' → y = y'
  rep : ∀ n y, W n y → ∃ subs, Rep L shares s.heap s.file n y subs ∧ (n ∉ pend → All2 (Child s.file W) (links s.file n) subs)

theorem Inv.lt {L : Loaders C D V P K} {good : Heap C D → Prop} {shares : C → Prop} {W : Nat → Nat → Prop} {pend s} (h : Inv L good shares W pend s) {n y} (hw : W n y) :
    n < s.file.length := by
  obtain ⟨_, ⟨o, m, cls, base, attrs, pa, na, _, _, h3, _⟩, _⟩ := h.rep n y hw
  rcases Nat.lt_or_ge n s.file.length with h | h
  · exact h
  · simp [h] at h3

theorem all2_imp {α β : Type} {r q : α → β → Prop} {xs ys} (h : All2 r xs ys) (hi : ∀ x y, r x y → q x y) : All2 q xs ys := by
  induction h with
  | nil => exact .nil
  | cons h _ ih => exact .cons (hi _ _ h) ih

theorem all2_snoc {α β : Type} {r : α → β → Prop} {xs ys x y} (h : All2 r xs ys) (hxy : r x y) : All2 r (xs ++ [x]) (ys ++ [y]) := by
  induction h with
  | nil => exact .cons hxy .nil
  | cons h _ ih => exact .cons h ih

/-- what a call of `_dump` does -/
structure Step (L : Loaders C D V P K) (good : Heap C D → Prop) (shares : C → Prop) (W : Nat → Nat → Prop) (pend : List Nat) (a : Nat) (parent : Option Nat) (name : String) (attrs : Attrs V)
    (s s' : DState C D V P) (W' : Nat → Nat → Prop) (nd : Node C V P) (news : File C V P) : Prop where
  file : s'.file = s.file ++ nd :: news
  pa : nd.parent = parent
  na : nd.name = name
  news : ∀ m ∈ news, ∃ g, m.parent = some g ∧ s.file.length ≤ g
  heap : s.heap <+: s'.heap
  inv : Inv L good shares W' pend s'
  old : ∀ n y, W n y → W' n y
  new : ∀ n y, W' n y → W n y ∨ s.file.length ≤ n
  child : Child s'.file W' (name, s.file.length) ⟨name, a, attrs⟩
  direct : Assoc.get? s.memo a = none → W' s.file.length a ∧ a < s.heap.length

/-- members of a group after one more sub item -/
theorem Step.links {L : Loaders C D V P K} {good : Heap C D → Prop} {shares : C → Prop} {W W' : Nat → Nat → Prop} {pend a parent name} {attrs : Attrs V} {s s' : DState C D V P} {nd news}
    (h : Step L good shares W pend a parent name attrs s s' W' nd news) {g : Nat} (hg : g < s.file.length) :
    links s'.file g = links s.file g ++ (if parent = some g then [(name, s.file.length)] else []) := by
  rw [h.file, links_append]
  congr 1
  have hn : members g news (s.file.length + 1) = [] := by
    refine members_none _ _ _ ?_
    intro m hm e
    obtain ⟨g', h1, h2⟩ := h.news m hm
    rw [h1] at e; simp at e; omega
  simp only [members, h.pa, h.na, hn]

theorem Step.prefix {L : Loaders C D V P K} {good : Heap C D → Prop} {shares : C → Prop} {W W' : Nat → Nat → Prop} {pend a parent name} {attrs : Attrs V} {s s' : DState C D V P} {nd news}
    (h : Step L good shares W pend a parent name attrs s s' W' nd news) : s.file <+: s'.file := ⟨_, h.file.symm⟩

/-- the loop over the sub items -/
theorem each_spec {L : Loaders C D V P K} {good : Heap C D → Prop} {shares : C → Prop} {isSub : String → Prop} {fuel n : Nat} {pend : List Nat}
    (ih : ∀ (a : Nat) (parent : Option Nat) (name : String) (attrs : Attrs V) (s s' : DState C D V P) (W : Nat → Nat → Prop) (pend : List Nat),
      dump L fuel a parent name attrs s = .ok s' → Inv L good shares W pend s → (∀ g, parent = some g → g < s.file.length ∧ g ∈ pend) →
      (∀ p ∈ attrs, isSub p.1 ∧ p.1 ≠ "type") → ∃ W' nd news, Step L good shares W pend a parent name attrs s s' W' nd news)
    (subs : List (Sub V)) (hsub : ∀ sub ∈ subs, ∀ p ∈ sub.attrs, isSub p.1 ∧ p.1 ≠ "type") (hn : n ∈ pend)
    (s s' : DState C D V P) (W : Nat → Nat → Prop) (done : List (Sub V)) (hlt : n < s.file.length) (hI : Inv L good shares W pend s)
    (hd : All2 (Child s.file W) (links s.file n) done)
    (h : each (fun sub => dump L fuel sub.addr (some n) sub.name sub.attrs) subs s = .ok s') :
    ∃ W' news, s'.file = s.file ++ news ∧ (∀ m ∈ news, ∃ g, m.parent = some g ∧ n ≤ g) ∧ s.heap <+: s'.heap ∧ Inv L good shares W' pend s' ∧
      (∀ n y, W n y → W' n y) ∧ (∀ m y, W' m y → W m y ∨ s.file.length ≤ m) ∧ All2 (Child s'.file W') (links s'.file n) (done ++ subs) := by
  induction subs generalizing s W done with
  | nil =>
    simp only [each, Except.ok.injEq] at h
    subst h
    exact ⟨W, [], by simp, by simp, List.prefix_rfl, hI, fun _ _ h => h, fun _ _ h => .inl h, by simpa using hd⟩
  | cons sub subs ihs =>
    simp only [each] at h
    split at h
    · next s1 h1 =>
      obtain ⟨W1, nd, news, st⟩ := ih _ _ _ _ _ _ W pend h1 hI (by intro g hg; simp at hg; subst hg; exact ⟨hlt, hn⟩) (hsub sub (by simp))
      have hlt1 : n < s1.file.length := by rw [st.file]; simp; omega
      have hl := st.links hlt
      rw [if_pos rfl] at hl
      have hd1 : All2 (Child s1.file W1) (links s1.file n) (done ++ [sub]) := by
        rw [hl]
        exact all2_snoc (all2_imp hd fun _ _ hc => hc.mono st.prefix st.old) st.child
      obtain ⟨W2, news2, e1, e2, e3, e4, e5, e6, e7⟩ := ihs (fun x hx => hsub x (by simp [hx])) s1 W1 (done ++ [sub]) hlt1 st.inv hd1 h
      refine ⟨W2, nd :: news ++ news2, ?_, ?_, st.heap.trans e3, e4, fun a b h => e5 _ _ (st.old _ _ h), ?_, by simpa using e7⟩
      · rw [e1, st.file]; simp
      · intro m hm
        rcases List.mem_append.1 hm with hm | hm
        · rcases List.mem_cons.1 hm with rfl | hm
          · exact ⟨n, st.pa, Nat.le_refl _⟩
          · obtain ⟨g, g1, g2⟩ := st.news m hm
            exact ⟨g, g1, by omega⟩
        · exact e2 m hm
      · intro m y hw
        rcases e6 m y hw with hw | hw
        · exact st.new m y hw
        · refine .inr ?_
          rw [st.file] at hw; simp at hw; omega
    · simp at h

theorem Inv.parents_push {L : Loaders C D V P K} {good : Heap C D → Prop} {shares : C → Prop} {W : Nat → Nat → Prop} {pend : List Nat} {s : DState C D V P} (hI : Inv L good shares W pend s)
    {nd : Node C V P} (hpar : ∀ g, nd.parent = some g → g < s.file.length ∧ g ∈ pend) : ∀ m ∈ s.file ++ [nd], ∀ g, m.parent = some g → g < s.file.length := by
  intro m hm g hg
  rcases List.mem_append.1 hm with hm | hm
  · exact hI.parents m hm g hg
  · simp at hm; subst hm; exact (hpar g hg).1

theorem Inv.links_push {L : Loaders C D V P K} {good : Heap C D → Prop} {shares : C → Prop} {W : Nat → Nat → Prop} {pend : List Nat} {s : DState C D V P} (hI : Inv L good shares W pend s)
    {nd : Node C V P} (hpar : ∀ g, nd.parent = some g → g < s.file.length ∧ g ∈ pend) : links (s.file ++ [nd]) s.file.length = [] := by
  refine members_none _ _ _ ?_
  intro m hm e
  have := hI.parents_push hpar m hm _ e
  omega

/-- the new node -/
theorem Inv.push {L : Loaders C D V P K} {good : Heap C D → Prop} {shares : C → Prop} {W : Nat → Nat → Prop} {pend : List Nat} {s : DState C D V P} (hI : Inv L good shares W pend s)
    {a : Nat} {o : Obj C D} (ho : s.heap[a]? = some o) (hm : Assoc.get? s.memo a = none) {parent : Option Nat}
    (hpar : ∀ g, parent = some g → g < s.file.length ∧ g ∈ pend) {h : Heap C D} (hh : s.heap <+: h) (hg : good h) {nd : Node C V P} (hnd : nd.parent = parent)
    {subs : List (Sub V)} (hrep : Rep L shares h (s.file ++ [nd]) s.file.length a subs) :
    Inv L good shares (fun n y => W n y ∨ n = s.file.length ∧ y = a) (s.file.length :: pend)
      (remember { s with heap := h, file := s.file ++ [nd] } (L.entry o.cls).memoise a s.file.length) := by
  have hlinks : ∀ g, g < s.file.length → g ∉ pend → links (s.file ++ [nd]) g = links s.file g := by
    intro g hg hp
    rw [links_append]
    simp only [members]
    rw [if_neg]
    · simp
    · intro e
      rw [hnd] at e
      exact hp (hpar g e).2
  have hfile : (remember { s with heap := h, file := s.file ++ [nd] } (L.entry o.cls).memoise a s.file.length).file = s.file ++ [nd] := by
    unfold remember; split <;> rfl
  have hheap : (remember { s with heap := h, file := s.file ++ [nd] } (L.entry o.cls).memoise a s.file.length).heap = h := by
    unfold remember; split <;> rfl
  have hmemo : ∀ y, y ≠ a → Assoc.get? (remember { s with heap := h, file := s.file ++ [nd] } (L.entry o.cls).memoise a s.file.length).memo y = Assoc.get? s.memo y := by
    intro y hy
    unfold remember
    split
    · exact Assoc.get?_put_ne _ _ (Ne.symm hy)
    · rfl
  constructor
  · rw [hheap]; exact hg
  · rw [hfile]
    intro m hm g hg
    have := hI.parents_push (by rw [hnd]; exact hpar) m hm g hg
    simp; omega
  · intro y n hy
    by_cases hya : y = a
    · subst hya
      unfold remember at hy
      split at hy
      · simp at hy; exact .inr ⟨hy.symm, rfl⟩
      · exact .inl (hI.memo _ _ hy)
    · rw [hmemo y hya] at hy
      exact .inl (hI.memo _ _ hy)
  · intro n y o' hw hy hme
    rw [hheap] at hy
    rcases hw with hw | ⟨rfl, rfl⟩
    · have hlt : ∃ o'', s.heap[y]? = some o'' := by
        obtain ⟨_, ⟨o1, _, _, _, _, _, _, h1, _⟩, _⟩ := hI.rep n y hw
        exact ⟨o1, h1⟩
      obtain ⟨o'', h1⟩ := hlt
      have := at_prefix hh h1
      rw [this] at hy; simp at hy; subst hy
      have := hI.memoised n y _ hw h1 hme
      by_cases hya : y = a
      · subst hya; rw [hm] at this; simp at this
      · rw [hmemo y hya]; exact this
    · have := at_prefix hh ho
      rw [this] at hy; simp at hy; subst hy
      simp [remember, hme]
  · intro n y y' h1 h2
    rcases h1 with h1 | ⟨rfl, rfl⟩ <;> rcases h2 with h2 | ⟨h2, rfl⟩
    · exact hI.fn _ _ _ h1 h2
    · have := hI.lt h1; omega
    · have := hI.lt h2; omega
    · rfl
  · intro n y hw
    rw [hfile, hheap]
    rcases hw with hw | ⟨rfl, rfl⟩
    · obtain ⟨subs', h1, h2⟩ := hI.rep n y hw
      refine ⟨subs', h1.mono hh ⟨_, rfl⟩, ?_⟩
      intro hp
      simp at hp
      rw [hlinks n (hI.lt hw) hp.2]
      exact all2_imp (h2 hp.2) fun _ _ hc => hc.mono ⟨_, rfl⟩ fun _ _ h => .inl h
    · exact ⟨subs, hrep, by simp⟩

/-- once its members are written a node is complete -/
theorem Inv.finish {L : Loaders C D V P K} {good : Heap C D → Prop} {shares : C → Prop} {W : Nat → Nat → Prop} {pend : List Nat} {n a : Nat} {s : DState C D V P} (hI : Inv L good shares W (n :: pend) s)
    (hw : W n a) {subs : List (Sub V)} (hrep : Rep L shares s.heap s.file n a subs) (hl : All2 (Child s.file W) (links s.file n) subs) : Inv L good shares W pend s := by
  refine { hI with rep := ?_ }
  intro m y hm
  by_cases hmn : m = n
  · subst hmn
    have := hI.fn _ _ _ hm hw
    subst this
    exact ⟨subs, hrep, fun _ => hl⟩
  · obtain ⟨subs', h1, h2⟩ := hI.rep m y hm
    exact ⟨subs', h1, fun hp => h2 (by simp [hmn, hp])⟩

theorem dump_spec {L : Loaders C D V P K} {good : Heap C D → Prop} {shares : C → Prop} {isSub : String → Prop} (hc : Contract L good shares isSub) (fuel : Nat) :
    ∀ (a : Nat) (parent : Option Nat) (name : String) (attrs : Attrs V) (s s' : DState C D V P) (W : Nat → Nat → Prop) (pend : List Nat),
      dump L fuel a parent name attrs s = .ok s' → Inv L good shares W pend s → (∀ g, parent = some g → g < s.file.length ∧ g ∈ pend) →
      (∀ p ∈ attrs, isSub p.1 ∧ p.1 ≠ "type") → ∃ W' nd news, Step L good shares W pend a parent name attrs s s' W' nd news := by
  induction fuel with
  | zero => intro a parent name attrs s s' W pend h; simp [dump] at h
  | succ fuel ih =>
    intro a parent name attrs s s' W pend h hI hpar hat
    simp only [dump] at h
    split at h
    · next n hm =>
      have e := push_ok h
      subst e
      refine ⟨W, _, [], rfl, rfl, rfl, by simp, List.prefix_rfl, ?_, fun _ _ h => h, fun _ _ h => .inl h, ?_, fun e => by rw [hm] at e; simp at e⟩
      · refine { good := hI.good, parents := fun m hm g hg => by have := hI.parents_push hpar m hm g hg; simp; omega
                 memo := hI.memo, memoised := hI.memoised, fn := hI.fn, rep := ?_ }
        intro m y hw
        obtain ⟨subs, h1, h2⟩ := hI.rep m y hw
        refine ⟨subs, h1.mono List.prefix_rfl ⟨_, rfl⟩, ?_⟩
        intro hp
        simp only [links_append, members]
        rw [if_neg (fun e => hp (hpar m e).2)]
        simp only [List.append_nil]
        exact all2_imp (h2 hp) fun _ _ hc => hc.mono ⟨_, rfl⟩ fun _ _ h => h
      · exact ⟨rfl, ⟨parent, name, .ref n attrs⟩, by simp, fun _ _ h => h, .inr ⟨n, attrs, rfl, hI.memo _ _ hm⟩⟩
    · next hm =>
      split at h
      · simp at h
      · next o ho =>
        split at h
        · next m hcr =>
          split at h
          · simp at h
          · next s1 hp =>
            have e := push_ok hp
            subst e
            have hkeep := hc.keep _ _ _ hcr
            have hown := hc.own _ _ _ hcr
            have hrep : Rep L shares m.heap (s.file ++ [⟨parent, name, .obj (some o.cls) (L.entry o.cls).base m.payload (nodeAttrs m.own attrs)⟩])
                s.file.length a m.subs :=
              ⟨o, m, some o.cls, (L.entry o.cls).base, nodeAttrs m.own attrs, parent, name, at_prefix hkeep ho, List.prefix_rfl, by simp, nodeAttrs_own hown hat, hc.restores _ _ _ _ hI.good ho hcr, fun hs => hc.memo _ hs, rfl,
                fun sub hs => ⟨s.heap, o, m, ho, hcr, List.prefix_rfl, sub, hs, rfl⟩⟩
            have hI1 := hI.push ho hm hpar hkeep (hc.stay _ _ _ hI.good hcr) rfl hrep
            generalize hs1 : remember { s with heap := m.heap, file := s.file ++ [_] } (L.entry o.cls).memoise a s.file.length = s1 at h hI1
            have hf1 : s1.file = s.file ++ [⟨parent, name, .obj (some o.cls) (L.entry o.cls).base m.payload (nodeAttrs m.own attrs)⟩] := by
              subst hs1; unfold remember; split <;> rfl
            have hh1 : s1.heap = m.heap := by subst hs1; unfold remember; split <;> rfl
            have hl1 : links s1.file s.file.length = [] := by
              rw [hf1]; exact hI.links_push hpar
            obtain ⟨W2, news, e1, e2, e3, e4, e5, e6, e7⟩ := each_spec ih m.subs (hc.sub _ _ _ hcr) (n := s.file.length) (pend := s.file.length :: pend) (by simp) s1 s' _ [] (by rw [hf1]; simp) hI1
              (by rw [hl1]; exact .nil) h
            have hw : W2 s.file.length a := e5 _ _ (.inr ⟨rfl, rfl⟩)
            refine ⟨W2, _, news, by rw [e1, hf1]; simp; rfl, rfl, rfl, e2, (hkeep.trans (by rw [← hh1]; exact e3)), ?_, fun _ _ h => e5 _ _ (.inl h), ?_, ?_, fun _ => ⟨hw, lt_of_some ho⟩⟩
            · refine e4.finish hw (hrep.mono (by rw [← hh1]; exact e3) (by rw [← hf1, e1]; exact ⟨_, rfl⟩)) (by simpa using e7)
            · intro n y hn
              rcases e6 n y hn with (hn | ⟨rfl, _⟩) | hn
              · exact .inl hn
              · exact .inr (Nat.le_refl _)
              · refine .inr ?_
                rw [hf1] at hn; simp at hn; omega
            · refine ⟨rfl, ⟨parent, name, .obj (some o.cls) (L.entry o.cls).base m.payload (nodeAttrs m.own attrs)⟩, ?_, nodeAttrs_sub hown hat, .inl hw⟩
              rw [e1, hf1]; simp
        · next hcr =>
          split at h
          · simp at h
          · next p hpk =>
            split at h
            · simp at h
            · next s1 hp =>
              have e := push_ok hp
              subst e
              simp only [Except.ok.injEq] at h
              have hrep : Rep L shares s.heap (s.file ++ [⟨parent, name, .obj none "pickle" p (nodeAttrs [] attrs)⟩]) s.file.length a [] :=
                ⟨o, ⟨p, [], [], s.heap⟩, none, "pickle", nodeAttrs [] attrs, parent, name, ho, List.prefix_rfl, by simp, fun n v h => by simp at h, hc.pickled _ _ _ _ hI.good ho hcr hpk,
                  fun _ => hc.objMemo, rfl, by simp⟩
              have hI1 := hI.push ho hm hpar List.prefix_rfl hI.good rfl hrep
              have hf1 : s'.file = s.file ++ [⟨parent, name, .obj none "pickle" p (nodeAttrs [] attrs)⟩] := by
                subst h; unfold remember; split <;> rfl
              have hh1 : s'.heap = s.heap := by subst h; unfold remember; split <;> rfl
              have hl1 : links s'.file s.file.length = [] := by
                rw [hf1]; exact hI.links_push hpar
              have hI1 : Inv L good shares (fun n y => W n y ∨ n = s.file.length ∧ y = a) (s.file.length :: pend) s' := by rw [← h]; exact hI1
              refine ⟨_, _, [], hf1, rfl, rfl, by simp, by rw [hh1]; exact List.prefix_rfl, hI1.finish (a := a) (.inr ⟨rfl, rfl⟩) (subs := []) ?_ (by rw [hl1]; exact .nil),
                fun _ _ h => .inl h, ?_, ?_, fun _ => ⟨.inr ⟨rfl, rfl⟩, lt_of_some ho⟩⟩
              · rw [hh1, hf1]; exact hrep
              · rintro n y (hn | ⟨rfl, _⟩)
                · exact .inl hn
                · exact .inr (Nat.le_refl _)
              · refine ⟨rfl, ⟨parent, name, .obj none "pickle" p (nodeAttrs [] attrs)⟩, by rw [hf1]; simp, nodeAttrs_sub (own := []) (by simp) hat, .inl (.inr ⟨rfl, rfl⟩)⟩
        · simp at h

end Verif.Custom
