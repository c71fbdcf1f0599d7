import Verif.Hickle.Top
import Verif.Hickle.LoadSteps
import Verif.Hickle.RoundTrip
/-!
# What `dump` and `load` do to the file, whether they succeed or fail

`Chg q`: nodes are only added, below the groups along the path `q` or below new nodes; attributes
are set only on new nodes and on an empty group, there only the ones of a hickle root group.
-/
namespace Verif

/-- attributes that `dump` writes on the group it dumps to -/
def RootKey (k : String) : Prop := k = "HICKLE_VERSION" ∨ k = "HICKLE_PYTHON_VERSION" ∨ ∃ o, k = optAttr o

/-- node `n` lies on the path `q` -/
def OnPath (S : Store) (q : List PyStr) (n : NodeId) : Prop := ∃ q1, q1 <+: q ∧ S.resolve 0 q1 = some n

/-- changes a call with path `q` may make to a file -/
inductive Chg (q : List PyStr) (S : Store) : Store → Prop
  | refl : Chg q S S
  | create {S1 S2 p name body n} : Chg q S S1 → Store.create S1 p name body = .ok (n, S2) → body.fresh = true →
      S.length ≤ p ∨ OnPath S q p → Chg q S S2
  | attr {S1 n k v} : Chg q S S1 → S.length ≤ n ∨ (OnPath S q n ∧ S.links n = some [] ∧ RootKey k) → Chg q S (Store.setAttr S1 n k v)
  | write {S1 n d} : Chg q S S1 → S.length ≤ n → Chg q S (Store.write S1 n d)

namespace Chg
variable {q : List PyStr} {S S' : Store}

theorem length (h : Chg q S S') : S.length ≤ S'.length := by
  induction h with
  | refl => exact Nat.le_refl _
  | create _ hc _ _ ih =>
    obtain ⟨_, _, _, _, _, _, _, _, e, _⟩ := Store.create_ok hc
    omega
  | attr _ _ ih => rw [Store.length_setAttr]; exact ih
  | write _ _ ih => rw [Store.length_write]; exact ih

theorem tree (h : Chg q S S') (ht : Tree S) : Tree S' := by
  induction h with
  | refl => exact ht
  | create _ hc hf _ ih => exact ih.create hf hc
  | attr _ _ ih => exact ih.setAttr
  | write _ _ ih => exact ih.write

/-- nodes that were there before -/
theorem keep (h : Chg q S S') : ∀ (n : NodeId) (nd : Node), S[n]? = some nd →
    ∃ nd', S'[n]? = some nd' ∧ nd'.name = nd.name ∧ (∀ d, nd.body = .dset d → nd' = nd) ∧
      (∀ ls, nd.body = .group ls → ∃ l, nd'.body = .group (ls ++ l)) ∧
      (nd.body ≠ .group [] → nd'.attrs = nd.attrs) ∧ (¬ OnPath S q n → nd' = nd) ∧
      ∀ k, ¬ RootKey k → Assoc.get? nd'.attrs k = Assoc.get? nd.attrs k := by
  induction h with
  | refl => exact fun n nd h => ⟨nd, h, rfl, fun _ _ => rfl, fun ls h => ⟨[], by simpa using h⟩, fun _ => rfl, fun _ => rfl, fun _ _ => rfl⟩
  | @create S1 S2 p name body m hg hc hf hp ih =>
    intro n nd hn
    obtain ⟨nd1, h1, h2, h3, h4, h5, h6, h7⟩ := ih n nd hn
    obtain ⟨pd, ls, e1, e2, _, _, _, e3, _, e5, e6, e7⟩ := Store.create_ok hc
    have hlt := lt_of_getElem? hn
    have hlt1 := lt_of_getElem? h1
    by_cases hnp : n = p
    · subst hnp
      rw [e1] at h1; simp at h1; subst h1
      refine ⟨_, e6, h2, ?_, ?_, h5, ?_, h7⟩
      · intro d hd
        have := h3 d hd; subst this
        rw [e2] at hd; simp at hd
      · intro ls0 hls0
        obtain ⟨l, hl⟩ := h4 ls0 hls0
        rw [e2] at hl; simp at hl; subst hl
        exact ⟨l ++ [(name, m)], by simp⟩
      · intro hnot
        rcases hp with hp | hp
        · omega
        · exact absurd hp hnot
    · exact ⟨nd1, by rw [e7 n hnp (by omega)]; exact h1, h2, h3, h4, h5, h6, h7⟩
  | @attr S1 m k v hg hm ih =>
    intro n nd hn
    obtain ⟨nd1, h1, h2, h3, h4, h5, h6, h7⟩ := ih n nd hn
    have hlt := lt_of_getElem? hn
    by_cases hnm : n = m
    · subst hnm
      rcases hm with hm | ⟨hp, hl, hk⟩
      · omega
      · obtain ⟨nd0, g1, g2⟩ := Store.links_eq hl
        rw [hn] at g1; simp at g1; subst g1
        refine ⟨_, Store.getElem?_setAttr_self h1 k v, h2, ?_, h4, ?_, ?_, ?_⟩
        · intro d hd; rw [g2] at hd; simp at hd
        · intro hne; exact absurd g2 hne
        · intro hnot; exact absurd hp hnot
        · intro k' hk'
          rw [← h7 k' hk']
          refine Assoc.get?_put_ne _ _ ?_
          rintro rfl; exact hk' hk
    · exact ⟨nd1, by rw [Store.getElem?_setAttr_ne hnm]; exact h1, h2, h3, h4, h5, h6, h7⟩
  | @write S1 m d hg hm ih =>
    intro n nd hn
    obtain ⟨nd1, h1, h2, h3, h4, h5, h6, h7⟩ := ih n nd hn
    have hlt := lt_of_getElem? hn
    exact ⟨nd1, by rw [Store.getElem?_write_ne (by omega)]; exact h1, h2, h3, h4, h5, h6, h7⟩

theorem glinks (h : Chg q S S') : ∀ n ls, S.links n = some ls → ∃ ls', S'.links n = some (ls ++ ls') := by
  intro n ls hl
  obtain ⟨nd, h1, h2⟩ := Store.links_eq hl
  obtain ⟨nd', g1, _, _, g2, _⟩ := h.keep n nd h1
  obtain ⟨l, hl'⟩ := g2 ls h2
  exact ⟨l, Store.links_of g1 hl'⟩

/-- every link was there before or leads to a new node -/
theorem links (h : Chg q S S') : ∀ (p : NodeId) (ls : List (PyStr × NodeId)), S'.links p = some ls → ∀ e ∈ ls,
    (∃ ls0, S.links p = some ls0 ∧ e ∈ ls0) ∨ S.length ≤ e.2 := by
  induction h with
  | refl => exact fun p ls h e he => .inl ⟨ls, h, he⟩
  | @create S1 S2 r name body m hg hc hf hq ih =>
    intro p ls hl e he
    obtain ⟨ls1, h1, h2, h3, h4, h5, h6⟩ := Store.create_links hf hc
    have hlen := hg.length
    by_cases hpq : p = r
    · subst hpq
      rw [h2] at hl; simp at hl; subst hl
      rcases List.mem_append.1 he with he | he
      · exact ih p ls1 h1 e he
      · simp at he; subst he
        exact .inr (by simp only; omega)
    · by_cases hpm : p = m
      · subst hpm
        rw [h5 ls hl] at he; simp at he
      · rw [h6 p hpq hpm] at hl
        exact ih p ls hl e he
  | @attr S1 m k v hg hm ih =>
    intro p ls hl
    rw [Store.links_setAttr] at hl
    exact ih p ls hl
  | @write S1 m d hg hm ih =>
    intro p ls hl
    rw [Store.links_write] at hl
    exact ih p ls hl

theorem ofGrow {S1 S2 : Store} {N g T nm} (h : Chg q S S1) (hg : Grow N g T nm S1 S2) (hN : S.length ≤ N)
    (hpg : S.length ≤ g ∨ OnPath S q g) (hpT : S.length ≤ T ∨ OnPath S q T) : Chg q S S2 := by
  induction hg with
  | refl => exact h
  | create _ hc hf hp ih =>
    refine ih.create hc hf ?_
    rcases hp with ⟨rfl, _⟩ | rfl | hp
    · exact hpg
    · exact hpT
    · exact .inl (by omega)
  | attr _ hn ih => exact ih.attr (.inl (by omega))
  | write _ hn ih => exact ih.write (by omega)

end Chg

/-! ### the target group -/

/-- what is known of a group `dump` writes to -/
structure Target (q : List PyStr) (S S1 : Store) (g : NodeId) : Prop where
  chg : Chg q S S1
  place : S.length ≤ g ∨ (OnPath S q g ∧ S.links g = some [])
  res : S1.resolve 0 q = some g
  empty : S1.links g = some []
  attrs : S1.attrs g = if g < S.length then S.attrs g else some []

theorem Store.mkPath_new {q : List PyStr} {S0 S S' : Store} {n g : NodeId} {xs : List PyStr} (hC : Chg q S0 S) (hn : S0.length ≤ n)
    (hl : S.links n = some []) (ha : S.attrs n = some []) (h : S.mkPath n xs = .ok (g, S')) :
    Chg q S0 S' ∧ S0.length ≤ g ∧ S'.resolve n xs = some g ∧ S'.links g = some [] ∧ S'.attrs g = some [] ∧
      (∀ m ls, S.links m = some ls → ∃ ls', S'.links m = some (ls ++ ls')) := by
  induction xs generalizing S n with
  | nil =>
    simp [Store.mkPath] at h
    obtain ⟨rfl, rfl⟩ := h
    exact ⟨hC, hn, rfl, hl, ha, fun m ls h => ⟨[], by simpa using h⟩⟩
  | cons x xs ih =>
    simp only [Store.mkPath, hl, Assoc.get?_nil] at h
    cases hc : S.create n x (.group []) with
    | error e => rw [hc] at h; simp at h
    | ok r =>
      obtain ⟨m, S1⟩ := r
      rw [hc] at h
      simp only [] at h
      obtain ⟨ls, h1, h2, h3, h4, h5, h6⟩ := Store.create_links rfl hc
      rw [hl] at h1; simp at h1; subst h1
      obtain ⟨_, _, _, _, _, _, _, _, _, e5, _⟩ := Store.create_ok hc
      have hlen := hC.length
      have hm1 : S1.links m = some [] := Store.links_of e5 rfl
      obtain ⟨k1, k2, k3, k4, k5, k6⟩ := ih (hC.create hc rfl (.inl hn)) (by omega) hm1 (by simp [Store.attrs, e5]) h
      refine ⟨k1, k2, ?_, k4, k5, ?_⟩
      · obtain ⟨ls', hls'⟩ := k6 n _ h2
        simp only [Store.resolve, hls']
        simp [Assoc.get?, k3]
      · intro p ls hls
        obtain ⟨l1, hl1⟩ := (SExt.create hc).links p ls hls
        obtain ⟨l2, hl2⟩ := k6 p _ hl1
        exact ⟨l1 ++ l2, by rw [hl2]; simp⟩

theorem Store.mkPath_old {q1 xs : List PyStr} {S S' : Store} {n g : NodeId} (hq1 : S.resolve 0 q1 = some n)
    (hr : S.resolve n xs = none) (h : S.mkPath n xs = .ok (g, S')) :
    Chg (q1 ++ xs) S S' ∧ S.length ≤ g ∧ S'.resolve n xs = some g ∧ S'.links g = some [] ∧ S'.attrs g = some [] ∧
      (∀ m ls, S.links m = some ls → ∃ ls', S'.links m = some (ls ++ ls')) := by
  induction xs generalizing n q1 with
  | nil => simp [Store.resolve] at hr
  | cons x xs ih =>
    simp only [Store.mkPath] at h
    cases hl : S.links n with
    | none => rw [hl] at h; simp at h
    | some ls =>
      rw [hl] at h; simp only [] at h
      cases hg : Assoc.get? ls x with
      | some m =>
        rw [hg] at h; simp only [] at h
        have hq2 : S.resolve 0 (q1 ++ [x]) = some m := by
          rw [Store.resolve_append, hq1]; simp [Store.resolve, hl, hg]
        have hr2 : S.resolve m xs = none := by simpa [Store.resolve, hl, hg] using hr
        obtain ⟨k1, k2, k3, k4, k5, k6⟩ := ih hq2 hr2 h
        rw [List.append_assoc] at k1
        refine ⟨k1, k2, ?_, k4, k5, k6⟩
        obtain ⟨ls', hls'⟩ := k6 n ls hl
        simp only [Store.resolve, hls', Assoc.get?_append_some hg]
        exact k3
      | none =>
        rw [hg] at h; simp only [] at h
        cases hc : S.create n x (.group []) with
        | error e => rw [hc] at h; simp at h
        | ok r =>
          obtain ⟨m, S1⟩ := r
          rw [hc] at h; simp only [] at h
          obtain ⟨ls1, h1, h2, h3, h4, h5, h6⟩ := Store.create_links rfl hc
          rw [hl] at h1; simp at h1; subst h1
          obtain ⟨_, _, _, _, _, _, _, _, _, e5, _⟩ := Store.create_ok hc
          have hm1 : S1.links m = some [] := Store.links_of e5 rfl
          have hC : Chg (q1 ++ x :: xs) S S1 := Chg.refl.create hc rfl (.inr ⟨q1, List.prefix_append _ _, hq1⟩)
          obtain ⟨k1, k2, k3, k4, k5, k6⟩ := Store.mkPath_new hC (by omega) hm1 (by simp [Store.attrs, e5]) h
          refine ⟨k1, k2, ?_, k4, k5, ?_⟩
          · obtain ⟨ls', hls'⟩ := k6 n _ h2
            have hgx : Assoc.get? (ls ++ [(x, m)]) x = some m := by
              clear h2 hls' hl
              induction ls with
              | nil => simp [Assoc.get?]
              | cons p ls ihl =>
                obtain ⟨y, v⟩ := p
                simp only [Assoc.get?] at hg
                simp only [List.cons_append, Assoc.get?]
                split
                · next hk => rw [if_pos hk] at hg; simp at hg
                · next hk => rw [if_neg hk] at hg; exact ihl hg
            simp only [Store.resolve, hls']
            rw [Assoc.get?_append_some hgx]
            exact k3
          · intro p ls0 hls
            obtain ⟨l1, hl1⟩ := (SExt.create hc).links p ls0 hls
            obtain ⟨l2, hl2⟩ := k6 p _ hl1
            exact ⟨l1 ++ l2, by rw [hl2]; simp⟩

theorem dumpGroup_ok {path : List PyStr} {s s1 : Session} {g : NodeId} (h : dumpGroup path s = (.ok g, s1)) :
    Target path s.store s1.store g ∧ s1 = { s with store := s1.store } := by
  unfold dumpGroup at h
  cases hp : pathOk path with
  | error e => rw [hp] at h; simp at h
  | ok u =>
    rw [hp] at h; simp only [] at h
    cases hr : s.store.resolve 0 path with
    | some g' =>
      rw [hr] at h; simp only [] at h
      cases hl : s.store.links g' with
      | none => rw [hl] at h; simp at h
      | some ls =>
        rw [hl] at h
        cases ls with
        | cons _ _ => simp at h
        | nil =>
          simp at h
          obtain ⟨rfl, rfl⟩ := h
          refine ⟨⟨.refl, .inr ⟨⟨path, List.prefix_rfl, hr⟩, hl⟩, hr, hl, ?_⟩, rfl⟩
          obtain ⟨nd, h1, _⟩ := Store.links_eq hl
          rw [if_pos (lt_of_getElem? h1)]
    | none =>
      rw [hr] at h; simp only [] at h
      cases hm : s.store.mkPath 0 path with
      | error e => rw [hm] at h; simp at h
      | ok r =>
        obtain ⟨g', st⟩ := r
        rw [hm] at h; simp at h
        obtain ⟨rfl, rfl⟩ := h
        obtain ⟨k1, k2, k3, k4, k5, _⟩ := Store.mkPath_old (q1 := []) rfl hr hm
        refine ⟨⟨k1, .inl k2, k3, k4, ?_⟩, rfl⟩
        rw [if_neg (by omega)]; exact k5

theorem dumpGroup_err {path : List PyStr} {s s1 : Session} {e} (h : dumpGroup path s = (.error e, s1)) : s1 = s := by
  unfold dumpGroup at h
  repeat' (first | split at h)
  all_goals simp at h
  all_goals exact h.2.symm

/-! ### effects of `dump` -/

theorem finally'_modify {σ α : Type} (x : M σ α) (f : σ → σ) (s : σ) : finally' x (M.modify f) s = ((x s).1, f (x s).2) := rfl

/-- the state of a call in progress: what happened to the file, and the process state -/
structure Busy (P : Nat → Prop) (q : List PyStr) (S : Store) (w l r : Bool) (s : Session) : Prop where
  chg : Chg q S s.store
  reg : RegInv P s.reg
  writable : s.writable = w
  ldr : s.ldr = l
  ref : s.ref = r

variable {P : Nat → Prop} {q : List PyStr} {S : Store} {w l r : Bool} {g : NodeId}

/-- the group may get the attributes of a hickle root group -/
def MayRoot (S : Store) (q : List PyStr) (g : NodeId) : Prop := S.length ≤ g ∨ (OnPath S q g ∧ S.links g = some [])

theorem sSetAttr_keeps {k v} (hg : MayRoot S q g) (hk : RootKey k) : Keeps (Busy P q S w l r) (sSetAttr g k v) :=
  .modify (fun _ hs => ⟨hs.chg.attr (hg.imp id fun h => ⟨h.1, h.2, hk⟩), hs.reg, hs.writable, hs.ldr, hs.ref⟩) trivial

theorem setOptions_keeps (hg : MayRoot S q g) (os : List (String × Bool)) : ∀ maps, Keeps (Busy P q S w l r) (setOptions g os maps) := by
  induction os with
  | nil => exact fun maps => .pure trivial
  | cons o os ih =>
    obtain ⟨k, on⟩ := o
    intro maps
    simp only [setOptions]
    split
    · refine .bind (sSetAttr_keeps hg (.inr (.inr ⟨k, rfl⟩))) fun _ _ => ?_
      split
      · exact ih _
      · exact .throw _
    · exact ih _

/-- `LoaderManager.create_manager`: either it fails and the entry of the file stays, or there was no
entry and there is one now -/
theorem loaderEnter_post {os : Option (List (String × Bool))} {s : Session} (hs : Busy P q S w l r s) (hg : os = none ∨ MayRoot S q g) :
    (∃ e s1, loaderEnter g os s = (.error e, s1) ∧ Busy P q S w l r s1) ∨
    (l = false ∧ ∃ m s1, loaderEnter g os s = (.ok m, s1) ∧ Busy P q S w true r s1) := by
  unfold loaderEnter
  rw [M.bind_of_ok (M.get_apply s)]
  cases hl : s.ldr with
  | true => exact .inl ⟨_, s, rfl, hs⟩
  | false =>
    simp only [Bool.false_eq_true, if_false]
    have hl' : l = false := hs.ldr.symm.trans hl
    have key : Keeps (Busy P q S w l r) (optionMaps g os) := by
      cases os with
      | some os =>
        refine setOptions_keeps ?_ _ _
        rcases hg with hg | hg
        · simp at hg
        · exact hg
      | none => exact .bind .get fun _ _ => .ofExcept'
    have := (key s hs).1
    cases hx : optionMaps g os s with
    | mk a s1 =>
      rw [hx] at this
      cases a with
      | error e => rw [M.bind_of_error hx]; exact .inl ⟨_, _, rfl, this⟩
      | ok m =>
        rw [M.bind_of_ok hx]
        exact .inr ⟨hl', _, _, rfl, ⟨this.chg, this.reg, this.writable, rfl, this.ref⟩⟩

/-- `ReferenceManager.create_manager` -/
theorem refEnter_post {env : Env} {s : Session} (hs : Busy P q S w l r s) (hg : S.length ≤ g ∨ OnPath S q g) :
    (∃ e s1, refEnter env g s = (.error e, s1) ∧ Busy P q S w l r s1) ∨
    (r = false ∧ ∃ m s1, refEnter env g s = (.ok m, s1) ∧ Busy P q S w l true s1 ∧ (w = true → ∃ T, m.table = some T) ∧
      ∀ T, m.table = some T → (∃ ls, s1.store.links g = some ls ∧ Assoc.get? ls tableName = some T)) := by
  unfold refEnter
  rw [M.bind_of_ok (M.get_apply s)]
  cases hr : s.ref with
  | true => exact .inl ⟨_, s, rfl, hs⟩
  | false =>
    simp only [Bool.false_eq_true, if_false]
    have hr' : r = false := hs.ref.symm.trans hr
    have key : (∃ e s1, refInit env g s = (.error e, s1) ∧ Busy P q S w l r s1) ∨
        (∃ m s1, refInit env g s = (.ok m, s1) ∧ Busy P q S w l r s1 ∧ (w = true → ∃ T, m.table = some T) ∧
          ∀ T, m.table = some T → (∃ ls, s1.store.links g = some ls ∧ Assoc.get? ls tableName = some T)) := by
      unfold refInit
      cases hl : s.store.links g with
      | none => exact .inl ⟨_, s, rfl, hs⟩
      | some ls =>
        simp only []
        cases ht : Assoc.get? ls tableName with
        | none =>
          simp only []
          cases hw : s.writable with
          | false =>
            refine .inr ⟨_, s, rfl, hs, ?_, by simp⟩
            intro h; rw [← hs.writable, hw] at h; simp at h
          | true =>
            simp only [if_true]
            cases hc : s.store.create g tableName (.group []) with
            | error e => exact .inl ⟨_, s, rfl, hs⟩
            | ok p =>
              obtain ⟨T, st⟩ := p
              refine .inr ⟨_, _, rfl, ⟨hs.chg.create hc rfl hg, hs.reg, hw.symm.trans hs.writable, hs.ldr, hs.ref⟩, fun _ => ⟨T, rfl⟩, ?_⟩
              intro T' hT'
              simp at hT'; subst hT'
              obtain ⟨ls1, h1, h2, _⟩ := Store.create_links rfl hc
              rw [hl] at h1; simp at h1; subst h1
              refine ⟨_, h2, ?_⟩
              clear hl h2
              induction ls with
              | nil => simp [Assoc.get?]
              | cons p ls ihl =>
                obtain ⟨y, v⟩ := p
                simp only [Assoc.get?] at ht
                simp only [List.cons_append, Assoc.get?]
                split
                · next hk => rw [if_pos hk] at ht; simp at ht
                · next hk => rw [if_neg hk] at ht; exact ihl ht
        | some T =>
          simp only []
          cases hlT : s.store.links T with
          | none => exact .inl ⟨_, s, rfl, hs⟩
          | some es =>
            simp only []
            have htab : ∀ (es : List (PyStr × NodeId)) (m0 m : RefMgr), refEntries env s.store m0 es = .ok m → m.table = m0.table := by
              intro es
              induction es with
              | nil => intro m0 m h; simp [refEntries] at h; rw [h]
              | cons p es ih =>
                intro m0 m h
                simp only [refEntries] at h
                cases hp : refEntry env s.store m0 p with
                | error e => rw [hp] at h; simp at h
                | ok m1 =>
                  rw [hp] at h
                  rw [ih m1 m h]
                  unfold refEntry at hp
                  repeat' (first | split at hp)
                  all_goals simp at hp
                  all_goals rw [← hp]
            cases hw : s.writable with
            | false =>
              refine .inr ⟨_, s, rfl, hs, fun _ => ⟨T, rfl⟩, ?_⟩
              intro T' hT'; simp at hT'; subst hT'
              exact ⟨ls, hl, ht⟩
            | true =>
              simp only [if_true]
              cases he : refEntries env s.store ⟨some T, [], [], []⟩ es with
              | error e => exact .inl ⟨_, s, rfl, hs⟩
              | ok m =>
                have := htab _ _ _ he
                refine .inr ⟨m, s, rfl, hs, fun _ => ⟨T, this⟩, ?_⟩
                intro T' hT'
                rw [this] at hT'; simp at hT'; subst hT'
                exact ⟨ls, hl, ht⟩
    rcases key with ⟨e, s1, h1, h2⟩ | ⟨m, s1, h1, h2, h3, h4⟩
    · rw [M.bind_of_error h1]; exact .inl ⟨_, _, rfl, h2⟩
    · rw [M.bind_of_ok h1]
      exact .inr ⟨hr', _, _, rfl, ⟨h2.chg, h2.reg, h2.writable, h2.ldr, rfl⟩, h3, h4⟩

theorem dumpData_post {a : DumpArgs} {mgr : Manager} {m : RefMgr} {s : Session} (hE : EnvOk P a.env) (hP : ProtOk P a.env)
    (hs : Busy P q S w l r s) (hg : S.length ≤ g ∨ OnPath S q g) (hT : ∀ T, m.table = some T → S.length ≤ T ∨ OnPath S q T) :
    Busy P q S w l r (dumpData a g mgr m s).2 := by
  unfold dumpData
  cases ht : m.table with
  | none => exact hs
  | some T =>
    simp only []
    have h0 : Going P s.store.length g T dataName0 s.store a.heap
        { heap := a.heap, store := s.store, tlinks := m.tl, blinks := m.bl, reg := s.reg } :=
      ⟨.refl, Nat.le_refl _, hs.reg, List.prefix_rfl⟩
    have h1 := (dumpNode_keeps (c := ⟨a.env, mgr, a.kw, T⟩) hE hP a.fuel a.obj g dataName0 [] (.inl ⟨rfl, rfl⟩) _ h0).1
    exact ⟨hs.chg.ofGrow h1.grow hs.chg.length hg (hT T ht), h1.reg, hs.writable, hs.ldr, hs.ref⟩

/-- whatever `dump` does, succeeds or fails at any point: the file only changed along the path, and no
manager is left behind -/
theorem dumpTop_post {a : DumpArgs} {s : Session} (hE : EnvOk P a.env) (hP : ProtOk P a.env) (hreg : RegInv P s.reg) :
    Busy P a.path s.store s.writable s.ldr s.ref (dumpTop a s).2 := by
  have h0 : Busy P a.path s.store s.writable s.ldr s.ref s := ⟨.refl, hreg, rfl, rfl, rfl⟩
  unfold dumpTop
  rw [M.bind_of_ok (M.get_apply s)]
  cases hw : s.writable with
  | false => rw [hw] at h0; exact h0
  | true =>
    simp only [Bool.not_true, Bool.false_eq_true, if_false]
    cases hd : dumpGroup a.path s with
    | mk x s1 =>
      cases x with
      | error e =>
        rw [M.bind_of_error hd, dumpGroup_err hd]
        rw [hw] at h0; exact h0
      | ok g =>
        obtain ⟨ht, hs1⟩ := dumpGroup_ok hd
        rw [M.bind_of_ok hd]
        have hroot : MayRoot s.store a.path g := ht.place
        have hplace : s.store.length ≤ g ∨ OnPath s.store a.path g := hroot.imp id And.left
        have h1 : Busy P a.path s.store true s.ldr s.ref s1 := by
          rw [hs1]; exact ⟨ht.chg, hreg, hw, rfl, rfl⟩
        have h2 := (sSetAttr_keeps (k := "HICKLE_VERSION") (v := .bytes hickleVersion) hroot (.inl rfl) s1 h1).1
        rw [M.bind_of_ok (show sSetAttr g "HICKLE_VERSION" (.bytes hickleVersion) s1 =
          (.ok (), (sSetAttr g "HICKLE_VERSION" (.bytes hickleVersion) s1).2) from rfl)]
        generalize (sSetAttr g "HICKLE_VERSION" (.bytes hickleVersion) s1).2 = s2 at h2 ⊢
        have h3 := (sSetAttr_keeps (k := "HICKLE_PYTHON_VERSION") (v := .bytes (verText a.pyver)) hroot (.inr (.inl rfl)) s2 h2).1
        rw [M.bind_of_ok (show sSetAttr g "HICKLE_PYTHON_VERSION" (.bytes (verText a.pyver)) s2 =
          (.ok (), (sSetAttr g "HICKLE_PYTHON_VERSION" (.bytes (verText a.pyver)) s2).2) from rfl)]
        generalize (sSetAttr g "HICKLE_PYTHON_VERSION" (.bytes (verText a.pyver)) s2).2 = s3 at h3 ⊢
        rcases loaderEnter_post h3 (.inr hroot) (os := a.options) with ⟨e, s4, e4, h4⟩ | ⟨hl, mgr, s4, e4, h4⟩
        · rw [M.bind_of_error e4]; exact h4
        · rw [M.bind_of_ok e4]
          unfold loaderExit
          rw [finally'_modify, hl]
          have inner : Busy P a.path s.store true true s.ref ((do
              let m ← refEnter a.env g
              finally' (dumpData a g mgr m) (refExit m) : SM Unit) s4).2 := by
            rcases refEnter_post (env := a.env) h4 hplace with ⟨e, s5, e5, h5⟩ | ⟨hr, m, s5, e5, h5, h6, h7⟩
            · rw [M.bind_of_error e5]; exact h5
            · rw [M.bind_of_ok e5]
              obtain ⟨T, hT⟩ := h6 rfl
              unfold refExit
              rw [finally'_modify, hT, hr]
              have hTp : ∀ T', m.table = some T' → s.store.length ≤ T' ∨ OnPath s.store a.path T' := by
                intro T' hT'
                obtain ⟨ls, hl1, hl2⟩ := h7 T' hT'
                rcases h5.chg.links g ls hl1 _ (Assoc.get?_mem hl2) with ⟨ls0, k1, k2⟩ | k
                · rcases hroot with hr | ⟨_, hr⟩
                  · obtain ⟨nd, k3, _⟩ := Store.links_eq k1
                    have := lt_of_getElem? k3; omega
                  · rw [hr] at k1; simp at k1; subst k1; simp at k2
                · exact .inl k
              have h8 := dumpData_post (mgr := mgr) hE hP h5 hplace hTp
              exact ⟨h8.chg, h8.reg, h8.writable, h8.ldr, rfl⟩
          exact ⟨inner.chg, inner.reg, inner.writable, rfl, inner.ref⟩

/-! ### effects of `load` -/

theorem optionMaps_none (g : NodeId) (s : Session) :
    optionMaps g none s = (optMaps (attrOptions ((s.store.attrs g).getD [])) [none], s) := by
  show (M.get >>= fun s : Session => M.ofExcept (optMaps (attrOptions ((s.store.attrs g).getD [])) [none])) s = _
  rw [M.bind_of_ok (M.get_apply s)]
  cases optMaps (attrOptions ((s.store.attrs g).getD [])) [none] <;> rfl

theorem loadBodyTop_post {a : LoadArgs} {mgr : Manager} {m : RefMgr} {s : Session} (hE : EnvOk P a.env) (hP : ProtOk P a.env)
    (hs : Busy P q S w l r s) : Busy P q S w l r (loadBodyTop a g mgr m s).2 := by
  have key : ∀ d, RegInv P (loadNode ⟨a.env, mgr, s.store, a.order⟩ a.fuel (.root []) dataName0 d
        { heap := loadHeap, tcache := m.tc, reg := s.reg }).2.reg := fun d =>
    (loadNode_keeps (P := P) (c := ⟨a.env, mgr, s.store, a.order⟩) hE hP a.fuel (.root []) dataName0 d
      { heap := loadHeap, tcache := m.tc, reg := s.reg } (show RegInv P s.reg from hs.reg)).1
  unfold loadBodyTop
  cases s.store.links g with
  | none => exact hs
  | some ls =>
    simp only []
    cases Assoc.get? ls dataName0 with
    | none => exact hs
    | some d =>
      simp only []
      have := key d
      split <;> exact ⟨hs.chg, this, hs.writable, hs.ldr, hs.ref⟩

/-- Whatever `load` does: the file only changed along the path (the types table may have been
added), and in a writable file no manager is left behind. -/
theorem loadTop_post {a : LoadArgs} {s : Session} (hE : EnvOk P a.env) (hP : ProtOk P a.env) (hreg : RegInv P s.reg) :
    ∃ r', Busy P a.path s.store s.writable s.ldr r' (loadTop a s).2 ∧ (s.writable = true → r' = s.ref) ∧ (s.writable = false → (loadTop a s).2.store = s.store) := by
  have h0 : Busy P a.path s.store s.writable s.ldr s.ref s := ⟨.refl, hreg, rfl, rfl, rfl⟩
  have main : ∃ r', Busy P a.path s.store s.writable s.ldr r' (loadTry a s).2 ∧ (s.writable = true → r' = s.ref) ∧ (s.writable = false → (loadTry a s).2.store = s.store) := by
    unfold loadTry
    rw [M.bind_of_ok (M.get_apply s)]
    cases pathOk a.path with
    | error e => exact ⟨_, h0, fun _ => rfl, fun _ => rfl⟩
    | ok u =>
      simp only []
      cases hr : s.store.resolve 0 a.path with
      | none => exact ⟨_, h0, fun _ => rfl, fun _ => rfl⟩
      | some g =>
        simp only []
        cases hl : s.store.links g with
        | none => exact ⟨_, h0, fun _ => rfl, fun _ => rfl⟩
        | some ls =>
          simp only []
          cases route ((s.store.attrs 0).getD []) ((s.store.attrs g).getD []) with
          | refuse e => exact ⟨_, h0, fun _ => rfl, fun _ => rfl⟩
          | v3 => exact ⟨_, h0, fun _ => rfl, fun _ => rfl⟩
          | v4 => exact ⟨_, h0, fun _ => rfl, fun _ => rfl⟩
          | current =>
            simp only []
            have hplace : s.store.length ≤ g ∨ OnPath s.store a.path g := .inr ⟨_, List.prefix_rfl, hr⟩
            have hst : ∀ m s1, loaderEnter g none s = (m, s1) → s1.store = s.store := by
              intro m s1 h
              unfold loaderEnter at h
              rw [M.bind_of_ok (M.get_apply s)] at h
              split at h
              · simp at h; rw [← h.2]
              · have hm := optionMaps_none g s
                cases ho : optMaps (attrOptions ((s.store.attrs g).getD [])) [none] with
                | error e =>
                  rw [ho] at hm
                  rw [M.bind_of_error hm] at h
                  simp at h; rw [← h.2]
                | ok m =>
                  rw [ho] at hm
                  rw [M.bind_of_ok hm, M.bind_of_ok (M.modify_apply _ _)] at h
                  simp at h; rw [← h.2]
            rcases loaderEnter_post (g := g) h0 (os := none) (.inl rfl) with ⟨e, s4, e4, h4⟩ | ⟨hl, mgr, s4, e4, h4⟩
            · rw [M.bind_of_error e4]; exact ⟨_, h4, fun _ => rfl, fun _ => hst _ _ e4⟩
            · rw [M.bind_of_ok e4]
              unfold loaderExit
              rw [finally'_modify, hl]
              have inner : ∃ r', Busy P a.path s.store s.writable true r' ((do
                  let m ← refEnter a.env g
                  finally' (loadBodyTop a g mgr m) (refExit m) : SM (Heap × Addr)) s4).2 ∧ (s.writable = true → r' = s.ref) ∧
                  (s.writable = false → ((do
                    let m ← refEnter a.env g
                    finally' (loadBodyTop a g mgr m) (refExit m) : SM (Heap × Addr)) s4).2.store = s.store) := by
                have hst5 : ∀ m s5, refEnter a.env g s4 = (m, s5) → s.writable = false → s5.store = s.store := by
                  intro m s5 h hw
                  rw [← hst _ _ e4]
                  have hw4 : s4.writable = false := h4.writable.trans hw
                  unfold refEnter at h
                  rw [M.bind_of_ok (M.get_apply s4)] at h
                  split at h
                  · simp at h; rw [← h.2]
                  · have hri : (refInit a.env g s4).2 = s4 := by
                      unfold refInit
                      rw [hw4]
                      simp only [Bool.false_eq_true, if_false]
                      repeat' split
                      all_goals rfl
                    cases hx : refInit a.env g s4 with
                    | mk y s6 =>
                      rw [hx] at hri; simp only at hri; subst hri
                      cases y with
                      | error e => rw [M.bind_of_error hx] at h; simp at h; rw [← h.2]
                      | ok m => rw [M.bind_of_ok hx, M.bind_of_ok (M.modify_apply _ _)] at h; simp at h; rw [← h.2]
                rcases refEnter_post (env := a.env) h4 hplace with ⟨e, s5, e5, h5⟩ | ⟨hr, m, s5, e5, h5, h6, h7⟩
                · rw [M.bind_of_error e5]; exact ⟨_, h5, fun _ => rfl, hst5 _ _ e5⟩
                · rw [M.bind_of_ok e5]
                  unfold refExit
                  rw [finally'_modify]
                  have h8 := loadBodyTop_post (g := g) (mgr := mgr) (m := m) hE hP h5
                  have h9 : (loadBodyTop a g mgr m s5).2.store = s5.store := by
                    unfold loadBodyTop
                    split
                    · rfl
                    · split
                      · rfl
                      · simp only []
                        split <;> rfl
                  refine ⟨_, ⟨h8.chg, h8.reg, h8.writable, h8.ldr, rfl⟩, ?_, fun hw => h9.trans (hst5 _ _ e5 hw)⟩
                  intro hw
                  obtain ⟨T, hT⟩ := h6 hw
                  simp [hT, hr]
              obtain ⟨r', k1, k2, k3⟩ := inner
              exact ⟨r', ⟨k1.chg, k1.reg, k1.writable, rfl, k1.ref⟩, k2, k3⟩
  have hsnd : (loadTop a s).2 = (loadTry a s).2 := by
    unfold loadTop
    rw [M.bind_of_ok (M.attempt_apply _ _)]
    cases (loadTry a s).1 <;> rfl
  rw [hsnd]; exact main

end Verif
