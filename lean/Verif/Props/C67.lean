import Verif.Hickle.Moved
import Verif.Props.C37
import Verif.Props.Examples
/-!
# C67: an object is loaded from wherever its group is, whatever else is in the file

What `load` returns depends on what hickle has stored at the group (`SameBelow`, with `Seen` and `SeenEntry`), not on the path of the group, on other
members of the group or on the rest of the file.  So with h5py groups can be moved, renamed and linked, and other groups and datasets can be added and
unlinked.
-/
namespace Verif

/-- **C67, every file.**  Two files have the same data at a group, found at one path of one and at another path of the other.  Then `load` does the same:
it returns the same object or raises the same exception, and it leaves both files alone.  The files may hold anything at the group, not only what
`dump` writes.  (If the group has no types table and the file is open for writing one is created: then the files change.) -/
theorem C67_place {a : LoadArgs} {q : List PyStr} {s : Session} {S' : Store} {g : NodeId} (hord : ∀ l, (a.order l).Perm l) (hp : pathOk a.path = .ok ())
    (hq : pathOk q = .ok ()) (hS : s.store.resolve 0 a.path = some g) (hS' : S'.resolve 0 q = some g) (h : SameBelow s.store S' g)
    (hroot : S'.attrs 0 = s.store.attrs 0) (ht : s.writable = true → ∃ ls T, s.store.links g = some ls ∧ Assoc.get? ls tableName = some T) :
    loadTop { a with path := q } { s with store := S' } = ((loadTop a s).1, { (loadTop a s).2 with store := S' }) ∧ (loadTop a s).2.store = s.store := by
  have := loadTop_along (a := a) (w := s.writable) (fun l p hp => (hord l).mem_iff.1 hp) hp hq hS hS' h (by rw [hroot]) ht s rfl rfl
  exact ⟨this.1, this.2.1⟩

/-- What can be done with h5py to a file `S` that holds an object at path `p`, so that the object is at path `q` of the file `S'`: groups outside of what
hickle has stored there are changed in any way, and anything is added.  (A group that is unlinked or overwritten keeps its number.) -/
structure Edited (S S' : Store) (p q : List PyStr) : Prop where
  /-- only groups are changed, and only such that are not in `data` and `hickle_types_table` -/
  changed : ∀ (n : NodeId) (nd : Node), S[n]? = some nd → S'[n]? ≠ some nd → (∃ ls, nd.body = .group ls) ∧ ∃ r, S.resolve 0 r = some n ∧ Avoids p r
  /-- the group of the object keeps its attributes and these two members -/
  group : ∃ g ls ls', S.resolve 0 p = some g ∧ S'.resolve 0 q = some g ∧ S'.attrs g = S.attrs g ∧ S.links g = some ls ∧ S'.links g = some ls' ∧
    Assoc.get? ls' (ps "data") = Assoc.get? ls (ps "data") ∧ Assoc.get? ls' (ps "hickle_types_table") = Assoc.get? ls (ps "hickle_types_table")
  /-- base types keep their names -/
  names : ∀ (e b : NodeId) (nd : Node), S[e]? = some nd → Assoc.get? nd.attrs "base_type" = some (.ref b) → (S'[b]?).map Node.name = (S[b]?).map Node.name
  /-- the file is not made to look like one of hickle 3 -/
  root : NoV3 S'

theorem BodyOf.noRef {H : Heap} {S : Store} {W : Rel} {n : NodeId} {b : Addr} (h : BodyOf H S W n b) {nd : Node} (hn : S[n]? = some nd) {t : NodeId} :
    nd.body ≠ .dset (.ref t) := by
  obtain ⟨o, nd', _, h2, h3⟩ := h
  rw [hn] at h2; cases h2
  intro e
  rw [e] at h3
  split at h3 <;> simp at h3

/-- the nodes of a dump -/
def DumpNode (S : Store) (W : Rel) (n : NodeId) : Prop :=
  (∃ b, W n b) ∨ ∃ nd t b, S[n]? = some nd ∧ nd.body = .dset (.ref t) ∧ Assoc.get? nd.attrs "type" = none ∧ W t b

theorem Child.dumpNode {S : Store} {W : Rel} {m a attrs} (h : Child S W m a attrs) : DumpNode S W m := by
  obtain ⟨nd, h1, _, h3 | ⟨t, h3, h4, h5⟩⟩ := h
  · exact .inl ⟨_, h3⟩
  · exact .inr ⟨nd, t, a, h1, h3, h4, h5⟩

theorem Kids.dumpNode {base : Nat} {H : Heap} {S : Store} {W : Rel} {ls subs} (h : Kids base H S W ls subs) : ∀ l ∈ ls, DumpNode S W l.2 := by
  induction h with
  | nil => simp
  | cons _ _ h1 _ ih =>
    intro l hl
    rcases List.mem_cons.1 hl with rfl | hl
    · exact h1.dumpNode
    · exact ih l hl

section
variable {P : Nat → Prop} {a : DumpArgs} {s s' : Session} {H' : Heap} {W : Rel} {g T m : NodeId} {N M : Nat}

theorem StoredAt.bodies {env : Env} {S : Store} {p : List PyStr} {H0 : Heap} {x : Addr} (hs : StoredAt env S p H0 H' x W g T m N M)
    (hob : ∀ (x : Addr) (o : Obj), H0[x]? = some o → ObjOk env o) : ∀ n b, W n b → BodyOf H' S W n b := by
  intro n b hw
  refine (hs.dumped.nodes n b hw).body fun o h => ?_
  obtain ⟨new, hnew⟩ := hs.dumped.pre
  by_cases hx : b < H0.length
  · rw [← hnew, List.getElem?_append_left hx] at h; exact hob b o h
  · exact (hs.dumped.temps b o (by omega) h).objOk h

/-- what a load of a dumped object looks at was written by the dump -/
theorem StoredAt.seen {env : Env} {S : Store} {p : List PyStr} {H0 : Heap} {x : Addr} (hs : StoredAt env S p H0 H' x W g T m N M)
    (hob : ∀ (x : Addr) (o : Obj), H0[x]? = some o → ObjOk env o) {n : NodeId} (h : Seen S g n) : DumpNode S W n := by
  induction h with
  | start h1 h2 h3 =>
    obtain ⟨ls, k1, k2, _⟩ := hs.data
    subst h3
    rw [k1] at h1; cases h1
    rw [k2] at h2; cases h2
    exact hs.dumped.root.dumpNode
  | @member n e x ls _ h2 h3 ih =>
    obtain ⟨nd, k1, k2⟩ := Store.links_eq h2
    rcases ih with ⟨b, hw⟩ | ⟨nd', t, b, k3, k4, _⟩
    · obtain ⟨o, nd', od, subs, _, k3, _, _, k4⟩ := hs.dumped.nodes n b hw
      rw [k1] at k3; cases k3
      cases od with
      | some d => simp only at k4; rw [k2] at k4; simp at k4
      | none =>
        obtain ⟨ls', k5, k6⟩ := k4
        rw [k2] at k5; cases k5
        exact k6.dumpNode _ h3
    · rw [k1] at k3; cases k3
      rw [k2] at k4; simp at k4
  | @data n e nd _ h2 h3 ih =>
    rcases ih with ⟨b, hw⟩ | ⟨nd', t, b, k3, k4, _, k5⟩
    · exact absurd h3 ((hs.bodies hob n b hw).noRef h2)
    · rw [h2] at k3; cases k3
      rw [h3] at k4; cases k4
      exact .inl ⟨b, k5⟩

/-- and so were the types -/
theorem StoredAt.seenEntry {env : Env} {S : Store} {p : List PyStr} {H0 : Heap} {x : Addr} (hs : StoredAt env S p H0 H' x W g T m N M)
    (hob : ∀ (x : Addr) (o : Obj), H0[x]? = some o → ObjOk env o) {e : NodeId} (h : SeenEntry S g e) : ∃ nd d, S[e]? = some nd ∧ nd.body = .dset d := by
  cases h with
  | @type n _ nd h1 h2 h3 =>
    rcases hs.seen hob h1 with ⟨b, hw⟩ | ⟨nd', t, b, k3, _, k4, _⟩
    · obtain ⟨o, nd', od, subs, _, k3, k4, _⟩ := hs.dumped.nodes n b hw
      rw [h2] at k3; cases k3
      rcases k4 with ⟨_, k4⟩ | ⟨_, e', k4, ed, _, _, k5, k6, _⟩
      · rw [k4] at h3; cases h3
      · rw [k4] at h3; cases h3
        exact ⟨ed, _, k5, k6⟩
    · rw [h2] at k3; cases k3
      rw [k4] at h3; cases h3
  | @table T' _ x ls es h1 h2 h3 h4 =>
    obtain ⟨ls', k1, _, k2⟩ := hs.data
    rw [k1] at h1; cases h1
    rw [k2] at h2; cases h2
    obtain ⟨es', k3, k4⟩ := hs.tab
    rw [k3] at h3; cases h3
    obtain ⟨nd, k5, k6⟩ := k4 _ h4
    rcases k6 with k6 | ⟨cls, k6, _⟩ <;> exact ⟨nd, _, k5, k6⟩

theorem Edited.same {env : Env} {S S' : Store} {p q : List PyStr} {H0 : Heap} {x : Addr} (he : Edited S S' p q) (hT : Tree S)
    (hs : StoredAt env S p H0 H' x W g T m N M) (hob : ∀ (x : Addr) (o : Obj), H0[x]? = some o → ObjOk env o) : SameBelow S S' g := by
  have keep : ∀ (n : NodeId) (nd : Node), S[n]? = some nd → ((∃ d, nd.body = .dset d) ∨ (∃ b, W n b) ∨ n = T) → S'[n]? = some nd := by
    intro n nd hn hk
    apply Classical.byContradiction
    intro hne
    obtain ⟨⟨ls, h1⟩, r, h2, h3⟩ := he.changed n nd hn hne
    rcases hk with ⟨d, hk⟩ | ⟨b, hk⟩ | rfl
    · rw [h1] at hk; simp at hk
    · obtain ⟨h4, h5⟩ := hs.inside n b hk
      rcases hs.way hT r n h2 h4 h5 with h6 | h6
      · exact h3.1 h6
      · exact h3.2 h6
    · refine h3.2 ?_
      rw [hT.path_unique r _ h2 hs.pathT]
      exact List.prefix_rfl
  obtain ⟨g', ls, ls', h1, h2, h3, h4, h5, h6, h7⟩ := he.group
  rw [hs.res] at h1; cases h1
  refine ⟨fun n hn => ?_, fun e hse => ?_, fun e b nd _ h1 h2 => he.names e b nd h1 h2, fun l2 T2 k1 k2 => ?_, h3, ls, ls', h4, h5, ?_⟩
  · rcases hs.seen hob hn with ⟨b, hw⟩ | ⟨nd, t, b, k1, k2, _⟩
    · obtain ⟨o, nd, od, subs, _, k1, _⟩ := hs.dumped.nodes n b hw
      rw [k1]; exact keep n nd k1 (.inr (.inl ⟨b, hw⟩))
    · rw [k1]; exact keep n nd k1 (.inl ⟨_, k2⟩)
  · obtain ⟨nd, d, k1, k2⟩ := hs.seenEntry hob hse
    rw [k1]; exact keep e nd k1 (.inl ⟨d, k2⟩)
  · obtain ⟨l3, k3, _, k4⟩ := hs.data
    rw [k3] at k1; cases k1
    rw [k4] at k2; cases k2
    obtain ⟨es, k5, _⟩ := hs.tab
    obtain ⟨td, k6, k7⟩ := Store.links_eq k5
    rw [k5]
    exact Store.links_of (keep T td k6 (.inr (.inr rfl))) k7
  · rintro x (rfl | rfl)
    · exact h6
    · exact h7

/-- **C67, dumped objects.**  After a `dump` the file is edited with h5py: groups outside of what hickle has stored are moved, renamed, linked and
unlinked, anything is added.  Then the object is loaded from the path where its group is now, in this process or another one. -/
theorem C67_moved (h : GoodDump P a s s') {S' : Store} {q : List PyStr} (he : Edited s'.store S' a.path q) (hq : pathOk q = .ok ()) :
    Loads P a.env S' q fun L b => Copy a.heap L b a.obj ∧ Redumpable P a.env L b := by
  obtain ⟨depth, hl⟩ := h.loads
  obtain ⟨H', W, g, T, m, N, M, hs⟩ := h.stored
  have hsame := he.same h.file'.tree hs fun x o hx => (h.graph.cls x o hx).2
  refine ⟨depth, fun t h1 h2 h3 h4 order h5 fuel h6 => ?_⟩
  obtain ⟨L, b, t', k1, k2, k3⟩ := hl { t with store := s'.store } rfl h2 h3 h4 order h5 fuel h6
  obtain ⟨g', ls, ls', e1, e2, _⟩ := he.group
  rw [hs.res] at e1; cases e1
  have hv := h.file'.noV3
  have hv' := he.root
  unfold NoV3 at hv hv'
  have key := loadTop_along (S := s'.store) (S' := S') (a := ⟨a.env, a.path, order, fuel⟩) (q := q) (w := t.writable) (fun l p hp => (h5 l).mem_iff.1 hp)
    hs.path hq hs.res e2 hsame (by simp [route, hv, hv']) (fun _ => by
      obtain ⟨ls, k1, _, k2⟩ := hs.data
      exact ⟨ls, T, k1, k2⟩) { t with store := s'.store } rfl rfl
  obtain ⟨key, _, _⟩ := key
  have ht : ({ ({ t with store := s'.store } : Session) with store := S' } : Session) = t := by subst h1; rfl
  simp only at key ht
  rw [ht, k1] at key
  exact ⟨L, b, _, key, k2, rfl⟩

end

/-! ## moving a group -/

/-- the members of a group are replaced -/
def Store.relink (S : Store) (k : NodeId) (ls : List (PyStr × NodeId)) : Store := S.modify k fun nd => { nd with body := .group ls }

/-- `file.move(source, dest)` of h5py: the member `x` of the group `k` becomes the member `y` of the group `k'`.  (`Node.name` remains the name the node was
created with; it is only looked at for entries of types tables.) -/
def Store.move (S : Store) (k : NodeId) (x : PyStr) (k' : NodeId) (y : PyStr) : Option Store :=
  match S.links k with
  | none => none
  | some ls => match Assoc.get? ls x with
    | none => none
    | some n =>
      let S1 := S.relink k (ls.filter fun e => e.1 ≠ x)
      match S1.links k' with
      | none => none
      | some ls' => if (Assoc.get? ls' y).isSome then none else some (S1.relink k' (ls' ++ [(y, n)]))

theorem Store.relink_ne {S : Store} {k n : NodeId} {ls} (h : n ≠ k) : (S.relink k ls)[n]? = S[n]? := by
  simp [Store.relink, Ne.symm h]

theorem Store.relink_self {S : Store} {k : NodeId} {ls ls'} (h : S.links k = some ls) : (S.relink k ls').links k = some ls' := by
  obtain ⟨nd, h1, _⟩ := Store.links_eq h
  exact Store.links_of (nd := { nd with body := .group ls' }) (by simp [Store.relink, h1]) rfl

theorem Store.relink_name (S : Store) (k n : NodeId) (ls) : ((S.relink k ls)[n]?).map Node.name = (S[n]?).map Node.name := by
  by_cases h : n = k
  · subst h; cases h1 : S[n]? <;> simp [Store.relink, h1]
  · rw [Store.relink_ne h]

theorem Store.relink_attrs (S : Store) (k n : NodeId) (ls) : (S.relink k ls).attrs n = S.attrs n := by
  unfold Store.attrs
  by_cases h : n = k
  · subst h; cases h1 : S[n]? <;> simp [Store.relink, h1]
  · rw [Store.relink_ne h]

theorem Assoc.get?_filter_ne {ν : Type} {l : List (PyStr × ν)} {x z : PyStr} (h : z ≠ x) : Assoc.get? (l.filter fun e => e.1 ≠ x) z = Assoc.get? l z := by
  induction l with
  | nil => rfl
  | cons e l ih =>
    by_cases he : e.1 = x
    · rw [List.filter_cons_of_neg (by simp [he])]
      rw [ih]
      simp [Assoc.get?, he, Ne.symm h]
    · rw [List.filter_cons_of_pos (by simp [he])]
      simp only [Assoc.get?]
      rw [ih]

theorem Assoc.get?_append_none {ν : Type} {l l' : List (PyStr × ν)} {z : PyStr} (h : Assoc.get? l z = none) : Assoc.get? (l ++ l') z = Assoc.get? l' z := by
  induction l with
  | nil => rfl
  | cons e l ih =>
    simp only [List.cons_append, Assoc.get?] at h ⊢
    split at h
    · cases h
    · next he => simp only [he, if_false]; exact ih h

/-- what a move does to the members of groups -/
theorem Store.move_spec {S S' : Store} {k k' : NodeId} {x y : PyStr} (h : S.move k x k' y = some S') :
    ∃ ls n ls' ls2, S.links k = some ls ∧ Assoc.get? ls x = some n ∧ S.links k' = some ls' ∧ S'.links k' = some ls2 ∧ Assoc.get? ls2 y = some n ∧
      (∀ j l z m, S.links j = some l → Assoc.get? l z = some m → ¬ (j = k ∧ z = x) → ∃ l', S'.links j = some l' ∧ Assoc.get? l' z = some m) ∧
      (∀ j : NodeId, j ≠ k → j ≠ k' → S'[j]? = S[j]?) ∧ (∀ j : NodeId, (S'[j]?).map Node.name = (S[j]?).map Node.name) ∧ (∀ j, S'.attrs j = S.attrs j) ∧
      (∀ j l, S.links j = some l → ∃ l', S'.links j = some l' ∧ ∀ z, z ≠ x → z ≠ y → Assoc.get? l' z = Assoc.get? l z) := by
  unfold Store.move at h
  cases hk : S.links k with
  | none => rw [hk] at h; cases h
  | some ls =>
    rw [hk] at h
    simp only at h
    cases hn : Assoc.get? ls x with
    | none => rw [hn] at h; cases h
    | some n =>
      rw [hn] at h
      simp only at h
      cases hk' : (S.relink k (ls.filter fun e => e.1 ≠ x)).links k' with
      | none => rw [hk'] at h; cases h
      | some l1 =>
        rw [hk'] at h
        simp only at h
        cases hy : Assoc.get? l1 y with
        | some m => rw [hy] at h; cases h
        | none =>
          rw [hy] at h
          simp only [Option.isSome_none, Bool.false_eq_true, if_false, Option.some.injEq] at h
          subst h
          have one : ∀ j l, S.links j = some l → ∃ l', (S.relink k (ls.filter fun e => e.1 ≠ x)).links j = some l' ∧
              ∀ z, ¬ (j = k ∧ z = x) → Assoc.get? l' z = Assoc.get? l z := by
            intro j l hj
            by_cases hjk : j = k
            · subst hjk
              rw [hk] at hj; cases hj
              refine ⟨_, Store.relink_self hk, fun z hz => Assoc.get?_filter_ne fun e => hz ⟨rfl, e⟩⟩
            · exact ⟨l, by rw [Store.links_congr (Store.relink_ne hjk)]; exact hj, fun _ _ => rfl⟩
          have two : ∀ j l, (S.relink k (ls.filter fun e => e.1 ≠ x)).links j = some l →
              ∃ l', ((S.relink k (ls.filter fun e => e.1 ≠ x)).relink k' (l1 ++ [(y, n)])).links j = some l' ∧
                (∀ z m, Assoc.get? l z = some m → Assoc.get? l' z = some m) ∧ ∀ z, z ≠ y → Assoc.get? l' z = Assoc.get? l z := by
            intro j l hj
            by_cases hjk : j = k'
            · subst hjk
              rw [hk'] at hj; cases hj
              refine ⟨_, Store.relink_self hk', fun z m hz => Assoc.get?_append_some hz, fun z hz => ?_⟩
              cases hg : Assoc.get? l1 z with
              | some m => exact Assoc.get?_append_some hg
              | none => rw [Assoc.get?_append_none hg]; simp [Assoc.get?, Ne.symm hz]
            · exact ⟨l, by rw [Store.links_congr (Store.relink_ne hjk)]; exact hj, fun _ _ h => h, fun _ _ => rfl⟩
          have hold : ∃ l, S.links k' = some l := by
            by_cases hjk : k' = k
            · exact ⟨ls, by rw [hjk]; exact hk⟩
            · exact ⟨l1, by rw [← hk']; exact (Store.links_congr (Store.relink_ne hjk)).symm⟩
          obtain ⟨l0, hold⟩ := hold
          refine ⟨ls, n, l0, l1 ++ [(y, n)], rfl, hn, hold, Store.relink_self hk', ?_, ?_, ?_, ?_, ?_, ?_⟩
          · rw [Assoc.get?_append_none hy]; simp [Assoc.get?]
          · intro j l z m hj hz hne
            obtain ⟨l', q1, q2⟩ := one j l hj
            obtain ⟨l2, q3, q4, _⟩ := two j l' q1
            exact ⟨l2, q3, q4 z m (by rw [q2 z hne]; exact hz)⟩
          · intro j h1 h2
            rw [Store.relink_ne h2, Store.relink_ne h1]
          · intro j
            rw [Store.relink_name, Store.relink_name]
          · intro j
            rw [Store.relink_attrs, Store.relink_attrs]
          · intro j l hj
            obtain ⟨l', q1, q2⟩ := one j l hj
            obtain ⟨l2, q3, _, q4⟩ := two j l' q1
            exact ⟨l2, q3, fun z h1 h2 => by rw [q4 z h2, q2 z fun e => h1 e.2]⟩

/-- paths that do not go through the link that is moved -/
theorem Store.resolve_kept {S S' : Store} {k : NodeId} {x : PyStr}
    (h : ∀ j l z m, S.links j = some l → Assoc.get? l z = some m → ¬ (j = k ∧ z = x) → ∃ l', S'.links j = some l' ∧ Assoc.get? l' z = some m) :
    ∀ (r : List PyStr) (i m : NodeId), S.resolve i r = some m → (∀ r0, r0 ++ [x] <+: r → S.resolve i r0 ≠ some k) → S'.resolve i r = some m := by
  intro r
  induction r with
  | nil => intro i m h1 _; exact h1
  | cons z r ih =>
    intro i m h1 h2
    simp only [Store.resolve] at h1 ⊢
    cases hl : S.links i with
    | none => rw [hl] at h1; cases h1
    | some l =>
      rw [hl] at h1
      simp only at h1
      cases hz : Assoc.get? l z with
      | none => rw [hz] at h1; cases h1
      | some w =>
        rw [hz] at h1
        simp only at h1
        obtain ⟨l', q1, q2⟩ := h i l z w hl hz (by
          rintro ⟨rfl, rfl⟩
          exact h2 [] (by simp) rfl)
        rw [q1]
        simp only [q2]
        refine ih w m h1 fun r0 h3 h4 => h2 (z :: r0) ?_ ?_
        · obtain ⟨t, ht⟩ := h3
          exact ⟨t, by simp [← ht]⟩
        · simp only [Store.resolve, hl, hz]; exact h4

/-- **C67, moves.**  After a `dump` to `π/x/r` the group `π/x` is moved to `ρ/y` with h5py, `ρ` being a group outside of it (and not inside what
hickle has stored).  Then the object is loaded from `ρ/y/r`, in this process or another one. -/
theorem C67_move {P : Nat → Prop} {a : DumpArgs} {s s' : Session} (h : GoodDump P a s s') {π ρ r : List PyStr} {x y : PyStr} {k k' : NodeId} {S' : Store}
    (hp : a.path = π ++ x :: r) (hk : s'.store.resolve 0 π = some k) (hk' : s'.store.resolve 0 ρ = some k') (hin : ¬ π ++ [x] <+: ρ)
    (hm : s'.store.move k x k' y = some S') (hq : pathOk (ρ ++ y :: r) = .ok ()) :
    Loads P a.env S' (ρ ++ y :: r) fun L b => Copy a.heap L b a.obj ∧ Redumpable P a.env L b := by
  obtain ⟨ls, n, ls', ls2, m1, m2, m3, m4, m5, m6, m7, m8, m9, m10⟩ := Store.move_spec hm
  have hT := h.file'.tree
  obtain ⟨H', W, g, T, m, N, M, hs⟩ := h.stored
  have hn : s'.store.resolve 0 (π ++ [x]) = some n := by
    rw [Store.resolve_append, hk]; simp [Store.resolve, m1, m2]
  have hng : s'.store.resolve n r = some g := by
    have := hs.res
    rw [hp, show π ++ x :: r = (π ++ [x]) ++ r by simp, Store.resolve_append, hn] at this
    exact this
  have h1 : S'.resolve 0 ρ = some k' := Store.resolve_kept m6 ρ 0 k' hk' fun r0 h1 h2 => by
    rw [hT.path_unique r0 π h2 hk] at h1
    exact hin h1
  have h2 : S'.resolve n r = some g := Store.resolve_kept m6 r n g hng fun r0 h1 h2 => by
    have : s'.store.resolve 0 ((π ++ [x]) ++ r0) = some k := by rw [Store.resolve_append, hn]; exact h2
    have := congrArg List.length (hT.path_unique _ π this hk)
    simp at this
  have hres : S'.resolve 0 (ρ ++ y :: r) = some g := by
    rw [Store.resolve_append, h1]
    simp only [Option.bind_some, Store.resolve, m4, m5]
    exact h2
  have hpath : π ++ [x] <+: a.path := ⟨r, by rw [hp]; simp⟩
  refine C67_moved h ⟨fun j nd hj hne => ?_, ?_, fun e b nd _ _ => m8 b, ?_⟩ hq
  · by_cases e1 : j = k
    · subst e1
      obtain ⟨nd', k1, k2⟩ := Store.links_eq m1
      rw [hj] at k1; cases k1
      refine ⟨⟨_, k2⟩, π, hk, ?_, ?_⟩ <;>
        (intro hpre; have := hpre.length_le; rw [hp] at this; simp at this; omega)
    · by_cases e2 : j = k'
      · subst e2
        obtain ⟨nd', k1, k2⟩ := Store.links_eq m3
        rw [hj] at k1; cases k1
        refine ⟨⟨_, k2⟩, ρ, hk', ?_, ?_⟩ <;>
          (intro hpre; exact hin ((hpath.trans (List.prefix_append _ _)).trans hpre))
      · exact absurd ((m7 j e1 e2).trans hj) hne
  · obtain ⟨lg, k1, _, _⟩ := hs.data
    have e1 : g ≠ k := by
      rintro rfl
      have := congrArg List.length (hT.path_unique _ π hs.res hk)
      rw [hp] at this
      simp at this
    have e2 : g ≠ k' := by
      rintro rfl
      rw [← hT.path_unique _ ρ hs.res hk'] at hin
      exact hin hpath
    exact ⟨g, lg, lg, hs.res, hres, m9 g, k1, by rw [Store.links_congr (m7 g e1 e2)]; exact k1, rfl, rfl⟩
  · have := h.file'.noV3
    unfold NoV3 at this ⊢
    rw [m9]; exact this

/-- `del file[name]` of h5py: the member `x` of the group `k` is unlinked -/
def Store.unlink (S : Store) (k : NodeId) (x : PyStr) : Option Store :=
  match S.links k with
  | none => none
  | some ls => if (Assoc.get? ls x).isNone then none else some (S.relink k (ls.filter fun e => e.1 ≠ x))

/-- what a move and an unlinking leave alone: every member of a group but `x` of the group at `π` -/
theorem Edited.others {P : Nat → Prop} {a : DumpArgs} {s s' : Session} (h : GoodDump P a s s') {π ρ : List PyStr} {x : PyStr} {k k' : NodeId} {S' : Store}
    (hk : s'.store.resolve 0 π = some k) (hk' : s'.store.resolve 0 ρ = some k') (ho : ¬ π ++ [x] <+: a.path) (hx : Avoids a.path (π ++ [x])) (hρ : Avoids a.path ρ)
    (m1 : ∃ ls, s'.store.links k = some ls) (m3 : ∃ ls, s'.store.links k' = some ls)
    (m6 : ∀ j l z m, s'.store.links j = some l → Assoc.get? l z = some m → ¬ (j = k ∧ z = x) → ∃ l', S'.links j = some l' ∧ Assoc.get? l' z = some m)
    (m7 : ∀ j : NodeId, j ≠ k → j ≠ k' → S'[j]? = s'.store[j]?) (m8 : ∀ j : NodeId, (S'[j]?).map Node.name = (s'.store[j]?).map Node.name)
    (m9 : ∀ j, S'.attrs j = s'.store.attrs j) : Edited s'.store S' a.path a.path := by
  have hT := h.file'.tree
  obtain ⟨H', W, g, T, m, N, M, hs⟩ := h.stored
  have hres : S'.resolve 0 a.path = some g := Store.resolve_kept m6 a.path 0 g hs.res fun r0 h1 h2 => by
    rw [hT.path_unique r0 π h2 hk] at h1
    exact ho h1
  have hπ : Avoids a.path π := ⟨fun h => hx.1 (h.trans (List.prefix_append _ _)), fun h => hx.2 (h.trans (List.prefix_append _ _))⟩
  refine ⟨fun j nd hj hne => ?_, ?_, fun e b nd _ _ => m8 b, ?_⟩
  · by_cases e1 : j = k
    · subst e1
      obtain ⟨ls, m1⟩ := m1
      obtain ⟨nd', k1, k2⟩ := Store.links_eq m1
      rw [hj] at k1; cases k1
      exact ⟨⟨_, k2⟩, π, hk, hπ⟩
    · by_cases e2 : j = k'
      · subst e2
        obtain ⟨ls, m3⟩ := m3
        obtain ⟨nd', k1, k2⟩ := Store.links_eq m3
        rw [hj] at k1; cases k1
        exact ⟨⟨_, k2⟩, ρ, hk', hρ⟩
      · exact absurd ((m7 j e1 e2).trans hj) hne
  · obtain ⟨lg, k1, k2, k3⟩ := hs.data
    have stay : ∀ z m, Avoids a.path (π ++ [x]) → (z = dataName0 ∨ z = tableName) → Assoc.get? lg z = some m → ∃ l', S'.links g = some l' ∧ Assoc.get? l' z = some m := by
      intro z m hx hz hm
      refine m6 g lg z m k1 hm ?_
      rintro ⟨rfl, rfl⟩
      rw [← hT.path_unique _ π hs.res hk] at hx
      rcases hz with rfl | rfl
      · exact hx.1 List.prefix_rfl
      · exact hx.2 List.prefix_rfl
    obtain ⟨l1, j1, j2⟩ := stay _ _ hx (.inl rfl) k2
    obtain ⟨l2, j3, j4⟩ := stay _ _ hx (.inr rfl) k3
    rw [j1] at j3; cases j3
    exact ⟨g, lg, l1, hs.res, hres, m9 g, k1, j1, j2.trans k2.symm, j4.trans k3.symm⟩
  · have := h.file'.noV3
    unfold NoV3 at this ⊢
    rw [m9]; exact this

/-- **C67, other objects.**  Moving `π/x` to `ρ/y` does not affect an object that is stored elsewhere: it is still loaded from where it is.  What is
moved may be a group above other objects or a group next to `data`, and it may be moved into the group of the object. -/
theorem C67_others_move {P : Nat → Prop} {a : DumpArgs} {s s' : Session} (h : GoodDump P a s s') {π ρ : List PyStr} {x y : PyStr} {k k' : NodeId} {S' : Store}
    (hk : s'.store.resolve 0 π = some k) (hk' : s'.store.resolve 0 ρ = some k') (ho : ¬ π ++ [x] <+: a.path) (hx : Avoids a.path (π ++ [x])) (hρ : Avoids a.path ρ)
    (hm : s'.store.move k x k' y = some S') : Loads P a.env S' a.path fun L b => Copy a.heap L b a.obj ∧ Redumpable P a.env L b := by
  obtain ⟨ls, n, ls', ls2, m1, m2, m3, m4, m5, m6, m7, m8, m9, m10⟩ := Store.move_spec hm
  obtain ⟨H', W, g, T, m, N, M, hs⟩ := h.stored
  exact C67_moved h (.others h hk hk' ho hx hρ ⟨_, m1⟩ ⟨_, m3⟩ m6 m7 m8 m9) hs.path

/-- The same for unlinking `π/x`. -/
theorem C67_others_unlink {P : Nat → Prop} {a : DumpArgs} {s s' : Session} (h : GoodDump P a s s') {π : List PyStr} {x : PyStr} {k : NodeId} {S' : Store}
    (hk : s'.store.resolve 0 π = some k) (ho : ¬ π ++ [x] <+: a.path) (hx : Avoids a.path (π ++ [x]))
    (hm : s'.store.unlink k x = some S') : Loads P a.env S' a.path fun L b => Copy a.heap L b a.obj ∧ Redumpable P a.env L b := by
  obtain ⟨H', W, g, T, m, N, M, hs⟩ := h.stored
  have hπ : Avoids a.path π := ⟨fun h => hx.1 (h.trans (List.prefix_append _ _)), fun h => hx.2 (h.trans (List.prefix_append _ _))⟩
  unfold Store.unlink at hm
  cases hl : s'.store.links k with
  | none => rw [hl] at hm; cases hm
  | some ls =>
    rw [hl] at hm
    simp only at hm
    split at hm
    · cases hm
    · cases hm
      refine C67_moved h (.others h hk hk ho hx hπ ⟨_, hl⟩ ⟨_, hl⟩ ?_ (fun j h1 _ => Store.relink_ne h1) (fun j => Store.relink_name _ _ _ _)
        fun j => Store.relink_attrs _ _ _ _) hs.path
      intro j l z m hj hz hne
      by_cases hjk : j = k
      · subst hjk
        rw [hl] at hj; cases hj
        exact ⟨_, Store.relink_self hl, by rw [Assoc.get?_filter_ne fun e => hne ⟨rfl, e⟩]; exact hz⟩
      · exact ⟨l, by rw [Store.links_congr (Store.relink_ne hjk)]; exact hj, hz⟩

/-! ## examples -/

/-- `C67_place` where the links of the root are changed in any way so that the group is found at `q`: added, renamed or removed -/
theorem C67_links {P : Nat → Prop} {a : DumpArgs} {s s' : Session} (h : GoodDump P a s s') {q : List PyStr} {ls : List (PyStr × NodeId)} (hne : a.path ≠ [])
    (hq : pathOk q = .ok ()) (hres : (s'.store.relink 0 ls).resolve 0 q = s'.store.resolve 0 a.path) {t : Session} (ht : t.store = s'.store)
    {order : List (PyStr × NodeId) → List (PyStr × NodeId)} (hord : ∀ l, (order l).Perm l) (fuel : Nat) :
    (loadTop ⟨a.env, q, order, fuel⟩ { t with store := s'.store.relink 0 ls }).1 = (loadTop ⟨a.env, a.path, order, fuel⟩ t).1 := by
  obtain ⟨H', W, g, T, m, N, M, hs⟩ := h.stored
  have hT := h.file'.tree
  have hg : g ≠ 0 := by
    rintro rfl
    exact hne (hT.path_unique _ [] hs.res rfl)
  have he : Edited s'.store (s'.store.relink 0 ls) a.path q := by
    refine ⟨fun n nd h1 h2 => ?_, ?_, fun e b nd _ _ => Store.relink_name _ _ _ _, ?_⟩
    · by_cases hn : n = 0
      · subst hn
        obtain ⟨l0, hl⟩ := hT.root
        obtain ⟨nd', k1, k2⟩ := Store.links_eq hl
        rw [h1] at k1; cases k1
        exact ⟨⟨l0, k2⟩, [], rfl, by constructor <;> simp⟩
      · exact absurd ((Store.relink_ne hn).trans h1) h2
    · obtain ⟨lg, k1, _⟩ := hs.data
      exact ⟨g, lg, lg, hs.res, hres.trans hs.res, Store.relink_attrs _ _ _ _, k1, (Store.links_congr (Store.relink_ne hg)).trans k1, rfl, rfl⟩
    · have := h.file'.noV3
      unfold NoV3 at this ⊢
      rw [Store.relink_attrs]; exact this
  have hsame := he.same hT hs fun x o hx => (h.graph.cls x o hx).2
  have := C67_place (a := ⟨a.env, a.path, order, fuel⟩) (q := q) (s := t) (S' := s'.store.relink 0 ls) (g := g) hord hs.path hq (by rw [ht]; exact hs.res)
    (hres.trans hs.res) (by rw [ht]; exact hsame) (by rw [ht]; exact Store.relink_attrs _ _ _ _) (fun _ => by
      obtain ⟨lg, k1, _, k2⟩ := hs.data
      exact ⟨lg, T, by rw [ht]; exact k1, k2⟩)
  have key := this.1
  simp only at key
  rw [key]

/-- the group of the dump of `Ex` is also linked as `/kept` -/
example (t : Session) (ht : t.store = Ex.file1.store) :
    (loadTop ⟨Ex.env, [ps "kept"], id, 100⟩ { t with store := Ex.file1.store.relink 0 [(ps "run", 1), (ps "kept", 2)] }).1 =
      (loadTop ⟨Ex.env, [ps "run", ps "a"], id, 100⟩ t).1 :=
  C67_links Ex.good (by decide) (by with_unfolding_all rfl) (by decide +kernel) ht (fun l => List.Perm.refl l) 100

/-- and the load returns an object -/
example : Ex.isOk (loadTop ⟨Ex.env, [ps "kept"], id, 100⟩ { Ex.file1 with store := Ex.file1.store.relink 0 [(ps "run", 1), (ps "kept", 2)] }).1 = true := by
  decide +kernel

/-- It is the group that has to be moved.  Of a list dumped to `/a`, `/a/data` is moved to `/b/data`, `/b` being another group: `load` raises. -/
theorem C67_data_alone :
    let H : Heap := [⟨.noneType, .none⟩, ⟨.str, .str (ps "x")⟩, ⟨.list, .seq [0, 1]⟩]
    let s1 := (dumpTop { Ex.args H 2 with path := [ps "a"] } Ex.file0).2
    let S2 := (s1.store.create 0 (ps "b") (.group [])).toOption.map (·.2)
    let S3 := S2.bind fun S => (S.resolve 0 [ps "a"]).bind fun k => (S.resolve 0 [ps "b"]).bind fun k' => S.move k dataName0 k' dataName0
    Ex.isOk (loadTop ⟨Ex.env, [ps "a"], id, 100⟩ s1).1 = true ∧
      S3.map (fun S => (Ex.raised (loadTop ⟨Ex.env, [ps "b"], id, 100⟩ { s1 with store := S }).1, Ex.raised (loadTop ⟨Ex.env, [ps "a"], id, 100⟩ { s1 with store := S }).1)) =
        some (some .valueError, some .valueError) := by
  decide +kernel

/-- the dump of `Ex` to `/run/a`, moved to `/kept`: the hypotheses of `C67_move` hold -/
example : ∃ S', Ex.file1.store.move 1 (ps "a") 0 (ps "kept") = some S' ∧ Loads (fun _ => True) Ex.env S' [ps "kept"] fun L b =>
    Copy Ex.heap L b 11 ∧ Redumpable (fun _ => True) Ex.env L b := by
  cases hm : Ex.file1.store.move 1 (ps "a") 0 (ps "kept") with
  | none => exact absurd hm (by decide +kernel)
  | some S' =>
    exact ⟨S', rfl, C67_move (π := [ps "run"]) (ρ := []) (r := []) (k := 1) (k' := 0) Ex.good rfl (by decide +kernel) rfl (by decide) hm (by with_unfolding_all rfl)⟩

/-- moving what is above it, `/run` to `/kept`, and loading from `/kept/a` -/
example : ∃ S', Ex.file1.store.move 0 (ps "run") 0 (ps "kept") = some S' ∧ Loads (fun _ => True) Ex.env S' [ps "kept", ps "a"] fun L b =>
    Copy Ex.heap L b 11 ∧ Redumpable (fun _ => True) Ex.env L b := by
  cases hm : Ex.file1.store.move 0 (ps "run") 0 (ps "kept") with
  | none => exact absurd hm (by decide +kernel)
  | some S' =>
    exact ⟨S', rfl, C67_move (π := []) (ρ := []) (r := [ps "a"]) (k := 0) (k' := 0) Ex.good rfl rfl rfl (by decide) hm (by with_unfolding_all rfl)⟩

/-- something else is dumped to `/old` before the dump of `Ex` to `/run/a` -/
def C67.before : Session := (dumpTop { Ex.dumpArgs with obj := 2, path := [ps "old"] } Ex.file0).2

def C67.after : Session := (dumpTop Ex.dumpArgs C67.before).2

theorem C67.good : GoodDump (fun _ => True) Ex.dumpArgs C67.before C67.after := by
  refine ⟨Ex.envOk, Ex.protOk, ?_, Ex.goodHeap, ⟨_, Ex.ranked⟩, by decide +kernel, ⟨?_, ?_⟩, ?_⟩
  · exact (Op.chg (P := fun _ => True) (o := .dump { Ex.dumpArgs with obj := 2, path := [ps "old"] }) ⟨Ex.envOk, Ex.protOk⟩ Ex.file0_ok).1
  · intro os h; simp [Ex.dumpArgs] at h; subst h; simp
  · intro g at' h1 _
    have : C67.before.store.resolve 0 Ex.dumpArgs.path = none := by decide +kernel
    rw [this] at h1; simp at h1
  · obtain ⟨⟨⟩, h⟩ := Ex.eq_of_isOk (r := dumpTop Ex.dumpArgs C67.before) (by decide +kernel)
    exact h

/-- `/old` is moved into the group of the object -/
example : ∃ k S', C67.after.store.resolve 0 [ps "run", ps "a"] = some k ∧ C67.after.store.move 0 (ps "old") k (ps "old") = some S' ∧
    Loads (fun _ => True) Ex.env S' [ps "run", ps "a"] fun L b => Copy Ex.heap L b 11 ∧ Redumpable (fun _ => True) Ex.env L b := by
  have hk : ((C67.after.store.resolve 0 [ps "run", ps "a"]).bind fun k => C67.after.store.move 0 (ps "old") k (ps "old")).isSome = true := by decide +kernel
  cases hr : C67.after.store.resolve 0 [ps "run", ps "a"] with
  | none => rw [hr] at hk; cases hk
  | some k =>
    rw [hr] at hk
    cases hm : C67.after.store.move 0 (ps "old") k (ps "old") with
    | none => simp only [Option.bind_some, hm] at hk; cases hk
    | some S' =>
      exact ⟨k, S', rfl, hm, C67_others_move (π := []) (x := ps "old") (ρ := [ps "run", ps "a"]) C67.good rfl hr (by decide) (by unfold Avoids; decide)
        (by unfold Avoids; decide) hm⟩

/-- `/old` is deleted -/
example : ∃ S', C67.after.store.unlink 0 (ps "old") = some S' ∧ Loads (fun _ => True) Ex.env S' [ps "run", ps "a"] fun L b =>
    Copy Ex.heap L b 11 ∧ Redumpable (fun _ => True) Ex.env L b := by
  cases hm : C67.after.store.unlink 0 (ps "old") with
  | none => exact absurd hm (by decide +kernel)
  | some S' => exact ⟨S', rfl, C67_others_unlink (π := []) (x := ps "old") C67.good rfl (by decide) (by unfold Avoids; decide) hm⟩

end Verif
