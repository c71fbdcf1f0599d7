import Verif.Hickle.TypesTable
import Verif.Props.C26
/-!
# C27 Type information is stored once and resolves to the right class
-/
namespace Verif

variable {P : Nat → Prop}

/-- one call of `store_type`: the node, the class and the loader name -/
structure TypeStore where
  node : NodeId
  cls : Cls
  base : String

/-- a sequence of such calls during one dump -/
def storeTypes (c : DCtx) (xs : List TypeStore) : DM Unit := M.forEach (fun x => storeType c x.node x.cls x.base) xs

/-- the loader name a class is stored with first -/
def firstName : List TypeStore → Cls → String
  | [], _ => ""
  | x :: xs, k => if x.cls = k then x.base else firstName xs k

/-- the group `T` has exactly one member that holds class `k` -/
def OneEntry (S : Store) (T : NodeId) (k : Cls) : Prop :=
  ∃ ls e, S.links T = some ls ∧ e ∈ ls ∧ (∃ nd, S[e.2]? = some nd ∧ nd.body = .dset (.pickleCls k)) ∧
    ∀ e' ∈ ls, (∃ nd, S[e'.2]? = some nd ∧ nd.body = .dset (.pickleCls k)) → e'.2 = e.2

/-- the type of the node resolves to the class and the loader name, whatever the environment, provided the class can be imported -/
def ResolvesTo (S : Store) (n : NodeId) (k : Cls) (base : String) : Prop :=
  ∃ nd, S[n]? = some nd ∧ ∀ (c : LCtx) (s : LState), c.store = S → s.tcache = [] → clsImportable c.env k = true →
    ∃ s', resolveType c nd s = (.ok ⟨k, base, base, nd.isGroup⟩, s')

namespace TT

theorem get_setType {S : Store} {n m : NodeId} {v : AttrVal} {nd : Node} (h : S[m]? = some nd) :
    ∃ nd', (S.setAttr n "type" v)[m]? = some nd' ∧ nd'.body = nd.body ∧ nd'.name = nd.name ∧ ∀ k, k ≠ "type" → Assoc.get? nd'.attrs k = Assoc.get? nd.attrs k := by
  by_cases e : m = n
  · subst e
    exact ⟨_, Store.getElem?_setAttr_self h _ _, rfl, rfl, fun k hk => Assoc.get?_put_ne _ _ (Ne.symm hk)⟩
  · exact ⟨nd, by rw [Store.getElem?_setAttr_ne e]; exact h, rfl, rfl, fun _ _ => rfl⟩

theorem TInv.setType {nm : Cls → String} {c : DCtx} {s : DState} {n : NodeId} {v : AttrVal} (h : TInv nm c s) :
    TInv nm c { s with store := s.store.setAttr n "type" v } where
  tab := by
    obtain ⟨ls, hl⟩ := h.tab
    exact ⟨ls, by simp only []; rw [Store.links_setAttr]; exact hl⟩
  tl cls e he := by
    obtain ⟨nd, b, bn, h1, h2, h3, h4, h5⟩ := h.tl cls e he
    obtain ⟨nd', k1, k2, k3, k4⟩ := get_setType (n := n) (v := v) h1
    obtain ⟨bn', j1, j2, j3, j4⟩ := get_setType (n := n) (v := v) h4
    exact ⟨nd', b, bn', k1, k2.trans h2, by rw [k4 _ (by decide)]; exact h3, j1, j3.trans h5⟩
  bl b m hm := by
    obtain ⟨nd, h1, h2⟩ := h.bl b m hm
    obtain ⟨nd', k1, k2, k3, k4⟩ := get_setType (n := n) (v := v) h1
    exact ⟨nd', k1, k3.trans h2⟩
  ents ls hls p hp := by
    simp only [] at hls
    rw [Store.links_setAttr] at hls
    obtain ⟨nd, h1, h2⟩ := h.ents ls hls p hp
    obtain ⟨nd', k1, k2, k3, k4⟩ := get_setType (n := n) (v := v) h1
    refine ⟨nd', k1, ?_⟩
    rw [k2]; exact h2

end TT

theorem firstName_append {pre ys : List TypeStore} {k : Cls} (h : ∀ y ∈ pre, y.cls ≠ k) : firstName (pre ++ ys) k = firstName ys k := by
  induction pre with
  | nil => rfl
  | cons y pre ih => simp only [List.cons_append, firstName, if_neg (h y (by simp))]; exact ih fun z hz => h z (by simp [hz])

/-- what holds after part of the calls -/
structure SeqInv (nm : Cls → String) (c : DCtx) (N : Nat) (pre : List TypeStore) (s : DState) : Prop where
  tinv : TT.TInv nm c s
  ext : N ≤ s.store.length
  known : ∀ k, (∃ x ∈ pre, x.cls = k) → k ≠ .object → (Assoc.get? s.tlinks k).isSome
  table : ∀ k e, Assoc.get? s.tlinks k = some e → ∃ ls, s.store.links c.table = some ls ∧ ∃ p ∈ ls, p.2 = e
  typed : ∀ x ∈ pre, x.cls ≠ .object → ∃ nd e, s.store[x.node]? = some nd ∧ Assoc.get? nd.attrs "type" = some (.ref e) ∧ Assoc.get? s.tlinks x.cls = some e

theorem storeTypes_inv {c : DCtx} {N : Nat} {xs : List TypeStore} (hn : ∀ x ∈ xs, x.node < N ∧ x.node ≠ c.table) (hd : xs.Pairwise fun x y => x.node ≠ y.node) :
    ∀ (ys pre : List TypeStore) (s s' : DState), pre ++ ys = xs → SeqInv (firstName xs) c N pre s → storeTypes c ys s = (.ok (), s') →
      SeqInv (firstName xs) c N xs s' := by
  intro ys
  induction ys with
  | nil =>
    intro pre s s' he hs h
    simp [storeTypes, M.forEach] at h
    have : pre = xs := by simpa using he
    subst this; subst h; exact hs
  | cons x ys ih =>
    intro pre s s' he hs h
    simp only [storeTypes, M.forEach] at h
    rw [M.bind_ok_iff] at h
    obtain ⟨_, s1, h1, h2⟩ := h
    refine ih (pre ++ [x]) s1 s' (by simpa using he) ?_ h2
    unfold storeType at h1
    by_cases hx : x.cls = .object
    · rw [if_pos hx] at h1
      simp at h1; subst h1
      refine ⟨hs.tinv, hs.ext, ?_, hs.table, ?_⟩
      · rintro k ⟨y, hy, rfl⟩ hk
        simp at hy
        rcases hy with hy | rfl
        · exact hs.known _ ⟨y, hy, rfl⟩ hk
        · exact absurd hx hk
      · intro y hy hk
        simp at hy
        rcases hy with hy | rfl
        · exact hs.typed y hy hk
        · exact absurd hx hk
    · rw [if_neg hx, M.bind_ok_iff] at h1
      obtain ⟨e, s2, g1, g2⟩ := h1
      have hb : Assoc.get? s.tlinks x.cls = none → x.base = firstName xs x.cls := by
        intro hno
        rw [← he, firstName_append, firstName, if_pos rfl]
        intro y hy hc
        have := hs.known x.cls ⟨y, hy, hc⟩ hx
        rw [hno] at this; simp at this
      obtain ⟨t1, t2, t3, t4, t5, t6, t7, t8, t9, t10⟩ := TT.typeEntryNode_ok hs.tinv hb g1
      have := setAttr_ok g2
      subst this
      have hxm : x ∈ xs := by rw [← he]; simp
      have hlen := t3.length
      refine ⟨t1.setType, by simp only [Store.length_setAttr]; exact Nat.le_trans hs.ext hlen, ?_, ?_, ?_⟩
      · rintro k ⟨y, hy, rfl⟩ hk
        simp at hy ⊢
        by_cases hyx : y.cls = x.cls
        · rw [hyx, t8]; rfl
        · rw [t9 _ hyx]
          rcases hy with hy | rfl
          · exact hs.known _ ⟨y, hy, rfl⟩ hk
          · exact absurd rfl hyx
      · intro k e' he'
        simp only [] at he' ⊢
        rw [Store.links_setAttr]
        by_cases hk : k = x.cls
        · subst hk
          rw [t8] at he'; simp at he'; subst he'
          cases ht : Assoc.get? s.tlinks x.cls with
          | none => exact t10 ht
          | some e0 =>
            have : e = e0 := by
              unfold typeEntryNode at g1
              rw [M.bind_of_ok (M.get_apply s), ht] at g1
              simp at g1; exact g1.1.symm
            subst this
            obtain ⟨ls, l1, p, l2, l3⟩ := hs.table _ _ ht
            obtain ⟨l', l4⟩ := t3.links _ _ l1
            exact ⟨_, l4, p, by simp [l2], l3⟩
        · rw [t9 k hk] at he'
          obtain ⟨ls, l1, p, l2, l3⟩ := hs.table k e' he'
          obtain ⟨l', l4⟩ := t3.links _ _ l1
          exact ⟨_, l4, p, by simp [l2], l3⟩
      · intro y hy hk
        simp at hy
        rcases hy with hy | rfl
        · obtain ⟨nd, e', n1, n2, n3⟩ := hs.typed y hy hk
          have hym : y ∈ xs := by rw [← he]; simp [hy]
          have hyx : y.node ≠ x.node := by
            rw [← he, List.pairwise_append] at hd
            exact hd.2.2 y hy x (by simp)
          refine ⟨nd, e', ?_, n2, ?_⟩
          · simp only []
            rw [Store.getElem?_setAttr_ne hyx]
            exact t4 _ _ (hn y hym).2 n1
          · simp only []
            by_cases hc : y.cls = x.cls
            · have : e = e' := by
                unfold typeEntryNode at g1
                rw [M.bind_of_ok (M.get_apply s), ← hc, n3] at g1
                simp at g1; exact g1.1.symm
              rw [hc, t8, this]
            · rw [t9 _ hc]; exact n3
        · have hlt : y.node < s2.store.length := by have := (hn y hxm).1; have := hs.ext; omega
          refine ⟨_, e, Store.getElem?_setAttr_self (List.getElem?_eq_getElem hlt) _ _, Assoc.get?_put_self _ _ _, t8⟩

theorem resolves_of {nm : Cls → String} {S : Store} {n e : NodeId} {nd : Node} {k : Cls} (h1 : S[n]? = some nd) (h2 : Assoc.get? nd.attrs "type" = some (.ref e))
    (h3 : TT.EntryOk nm S k e) : ResolvesTo S n k (nm k) := by
  refine ⟨nd, h1, ?_⟩
  rintro c s rfl ht hi
  obtain ⟨en, b, bn, k1, k2, k3, k4, k5⟩ := h3
  unfold resolveType
  rw [h2]
  simp only []
  have : resolveEntry c e s = (.ok (.known k (nm k)), { s with tcache := Assoc.put s.tcache e (.known k (nm k)) }) := by
    unfold resolveEntry
    rw [k1]
    simp only []
    have hno : Assoc.get? s.tcache e = none := by rw [ht]; rfl
    rw [M.bind_of_ok (M.get_apply s), hno]
    simp only [k3, k4, k5, k2, unps_ps, hi, if_true]
    rfl
  rw [M.bind_of_ok this]
  exact ⟨_, rfl⟩

/-- **C27, any sequence.**  During a dump the types of any nodes are stored, with any classes and loader names.  Afterwards the types
table has exactly one entry for each class, and the type of each node resolves to the class it was stored with and to the loader
name that class was stored with first. -/
theorem C27_sequence {c : DCtx} {s s' : DState} {xs : List TypeStore} (h0 : s.store.links c.table = some [] ∧ s.tlinks = [] ∧ s.blinks = [])
    (hn : ∀ x ∈ xs, x.node < s.store.length ∧ x.node ≠ c.table) (hd : xs.Pairwise fun x y => x.node ≠ y.node)
    (h : storeTypes c xs s = (.ok (), s')) :
    ∀ x ∈ xs, x.cls ≠ .object → OneEntry s'.store c.table x.cls ∧ ResolvesTo s'.store x.node x.cls (firstName xs x.cls) := by
  have hs : SeqInv (firstName xs) c s.store.length [] s := by
    refine ⟨⟨⟨⟨_, h0.1⟩, ?_, ?_⟩, ?_⟩, Nat.le_refl _, by simp, ?_, by simp⟩
    · intro k e he; rw [h0.2.1] at he; simp at he
    · intro k e he; rw [h0.2.2] at he; simp at he
    · intro ls hl p hp; rw [h0.1] at hl; simp at hl; subst hl; simp at hp
    · intro k e he; rw [h0.2.1] at he; simp at he
  have hf := storeTypes_inv hn hd xs [] s s' rfl hs h
  intro x hx hk
  obtain ⟨nd, e, n1, n2, n3⟩ := hf.typed x hx hk
  refine ⟨?_, resolves_of n1 n2 (hf.tinv.tl _ _ n3)⟩
  obtain ⟨ls, l1, p, l2, l3⟩ := hf.table _ _ n3
  obtain ⟨en, b, bn, k1, k2, _⟩ := hf.tinv.tl _ _ n3
  refine ⟨ls, p, l1, l2, ⟨en, by rw [l3]; exact k1, k2⟩, ?_⟩
  rintro q hq ⟨qd, q1, q2⟩
  obtain ⟨qd', r1, r2⟩ := hf.tinv.ents ls l1 q hq
  rw [q1] at r1; simp at r1; subst r1
  rcases r2 with r2 | ⟨k', r2, r3⟩
  · rw [q2] at r2; simp at r2
  · rw [q2] at r2; simp at r2; subst r2
    rw [n3] at r3; simp at r3
    rw [l3, r3]

/-- **C27, loader names (partial).**  If every class always comes with the same loader name, each node resolves to the class and
loader name it was stored with.  Missing: a class whose loader changes during the dump (`C27_violated`). -/
theorem C27_partial {c : DCtx} {s s' : DState} {xs : List TypeStore} (h0 : s.store.links c.table = some [] ∧ s.tlinks = [] ∧ s.blinks = [])
    (hn : ∀ x ∈ xs, x.node < s.store.length ∧ x.node ≠ c.table) (hd : xs.Pairwise fun x y => x.node ≠ y.node)
    (hb : ∀ x ∈ xs, ∀ y ∈ xs, x.cls = y.cls → x.base = y.base) (h : storeTypes c xs s = (.ok (), s')) :
    ∀ x ∈ xs, x.cls ≠ .object → OneEntry s'.store c.table x.cls ∧ ResolvesTo s'.store x.node x.cls x.base := by
  intro x hx hk
  have := C27_sequence h0 hn hd h x hx hk
  have hf : ∀ ys : List TypeStore, (∀ y ∈ ys, y ∈ xs) → x ∈ ys → firstName ys x.cls = x.base := by
    intro ys
    induction ys with
    | nil => simp
    | cons y ys ih =>
      intro h1 h2
      simp only [firstName]
      split
      · next e => exact hb y (h1 y (by simp)) x hx e
      · next e =>
        refine ih (fun z hz => h1 z (by simp [hz])) ?_
        simp at h2
        rcases h2 with rfl | h2
        · exact absurd rfl e
        · exact h2
  rw [hf xs (fun _ h => h) hx] at this
  exact this

/-- the group `T` has at most one member for each class -/
def NoDuplicates (S : Store) (T : NodeId) : Prop :=
  ∀ ls, S.links T = some ls → ∀ e ∈ ls, ∀ e' ∈ ls, ∀ (nd nd' : Node) (k : Cls), S[e.2]? = some nd → S[e'.2]? = some nd' →
    nd.body = .dset (.pickleCls k) → nd'.body = .dset (.pickleCls k) → e.2 = e'.2

/-- **C27, whole dumps.**  After a dump that returned, and any later calls on the file with paths that do not lead into it, the types
table has no class twice, and the type of every node that stands for an object resolves to the class of the object and to the name of
the loader the object was dumped with, or the object was pickled and its node carries no type.  The node at `data` stands for the
dumped object or refers to a node that does. -/
theorem C27_dump {a : DumpArgs} {s s' : Session} (h : GoodDump P a s s') {ops : List Op} (hops : ∀ o ∈ ops, o.ok P)
    (hp : ∀ o ∈ ops, ∀ q, o.path = some q → Avoids a.path q) :
    let S := (runOps ops s').store
    ∃ T m, S.resolve 0 (a.path ++ [tableName]) = some T ∧ S.resolve 0 (a.path ++ [dataName0]) = some m ∧ NoDuplicates S T ∧
      ∃ (H : Heap) (W : NodeId → Addr → Prop), a.heap <+: H ∧ (W m a.obj ∨ ∃ nd t, S[m]? = some nd ∧ nd.body = .dset (.ref t) ∧ W t a.obj) ∧
        ∀ n b, W n b → ∃ o nd, H[b]? = some o ∧ S[n]? = some nd ∧
          (ResolvesTo S n o.cls (expected a.env o.cls).2.base ∨ ((expected a.env o.cls).2.base = "pickle" ∧ Assoc.get? nd.attrs "type" = none)) := by
  obtain ⟨H, W, g, T, m, N, M', hs⟩ := h.stored.run hops h.file' hp
  obtain ⟨ls, hl, hl1, hl2⟩ := hs.data
  refine ⟨T, m, hs.pathT, ?_, hs.once, H, W, hs.dumped.pre, ?_, ?_⟩
  · rw [Store.resolve_append, hs.res]
    simp [Store.resolve, hl, hl1]
  · obtain ⟨nd, h1, _, h2⟩ := hs.dumped.root
    rcases h2 with h2 | ⟨t, h2, _, h3⟩
    · exact .inl h2
    · exact .inr ⟨nd, t, h1, h2, h3⟩
  · intro n b hw
    obtain ⟨o, nd, od, subs, h1, h2, h3, _⟩ := hs.dumped.nodes n b hw
    refine ⟨o, nd, h1, h2, ?_⟩
    rcases h3 with ⟨h3, h4⟩ | ⟨h3, e, h4, h5⟩
    · refine .inr ⟨?_, h4⟩
      unfold expected at h3 ⊢
      split
      · next e he =>
        rw [he] at h3
        simp only [] at h3
        exact (by rw [h3] at he; simp [Cls.mro, firstStd, stdReg] at he)
      · rfl
    · exact .inl (resolves_of (nm := fun k => (expected a.env k).2.base) h2 h4 h5)

/-- a dump context with an empty table 0 and three nodes -/
def Ex.tctx : DCtx := ⟨Ex.env, ⟨[none]⟩, [], 0⟩
def Ex.tstate : DState := { heap := [], store := [⟨[], [], .group []⟩, ⟨[], [], .group []⟩, ⟨[], [], .group []⟩, ⟨[], [], .group []⟩], reg := Registry.initial }
def Ex.tlist : List TypeStore := [⟨1, .list, "list"⟩, ⟨2, .user 1, "list"⟩, ⟨3, .list, "list"⟩]

example : ∃ s', storeTypes Ex.tctx Ex.tlist Ex.tstate = (.ok (), s') ∧ ∀ x ∈ Ex.tlist, x.cls ≠ .object →
    OneEntry s'.store 0 x.cls ∧ ResolvesTo s'.store x.node x.cls x.base := by
  have h : Ex.isOk (storeTypes Ex.tctx Ex.tlist Ex.tstate).1 = true := by decide +kernel
  obtain ⟨_, h'⟩ := Ex.eq_of_isOk h
  refine ⟨_, h', C27_partial (c := Ex.tctx) ⟨rfl, rfl, rfl⟩ ?_ ?_ ?_ h'⟩
  · simp [Ex.tlist, Ex.tstate, Ex.tctx]
  · simp [Ex.tlist]
  · simp [Ex.tlist]

example := C27_dump Ex.good (ops := [.reopen false]) (by simp [Op.ok]) (by simp [Op.path])

/-- a list of two objects of class `Both` -/
def Ex.twoBoth : Heap := [⟨.user 2, .seq []⟩, ⟨.user 2, .seq [0]⟩, ⟨.list, .seq [0, 1]⟩]
/-- the loader module of package `b` knows classes of both packages -/
def Ex.modAB' : LoaderMod := ⟨[{ cls := .user 0, base := "base", dump := some .listlike }, { cls := .user 1, base := "mixin", dump := some .listlike }], []⟩

/-- the type stored for a node -/
def Ex.storedType (S : Store) (n : NodeId) : Option (Cls × String) :=
  match S[n]? with
  | none => none
  | some nd => match Assoc.get? nd.attrs "type" with
    | some (.ref e) => match S[e]? with
      | some ⟨_, at', .dset (.pickleCls k)⟩ => match Assoc.get? at' "base_type" with
        | some (.ref b) => (S[b]?).map fun bn => (k, unps bn.name)
        | _ => none
      | _ => none
    | _ => none

def Ex.abEnv : Env := { Ex.hierEnv with mods := fun p => if p = "b" then some Ex.modAB' else none }

/-- **C27 is violated** when the loader of a class changes during a dump.  A list of two objects of class `Both` is dumped.  The first
is dumped by the loader `mixin`; looking it up imports a module that also registers the loader `base`, which is then the one for
`Both` and dumps the second (C26).  In the file both nodes, 5 and 8, have the loader name `mixin`. -/
theorem C27_violated :
    let r := dumpTop { env := Ex.abEnv, heap := Ex.twoBoth, obj := 2, path := [], fuel := 50 } Ex.file0
    let first := loadLoader Ex.abEnv ⟨[none]⟩ (.user 2) none (loadLoader Ex.abEnv ⟨[none]⟩ .list none Ex.file0.reg).2
    let second := loadLoader Ex.abEnv ⟨[none]⟩ (.user 2) none first.2
    Ex.isOk r.1 = true ∧
    first.1.toOption = some (.user 2, ⟨.listlike, "mixin", true⟩) ∧ second.1.toOption = some (.user 2, ⟨.listlike, "base", true⟩) ∧
    Ex.storedType r.2.store 5 = some (.user 2, "mixin") ∧ Ex.storedType r.2.store 8 = some (.user 2, "mixin") := by
  refine ⟨by decide +kernel, by decide +kernel, by decide +kernel, by decide +kernel, by decide +kernel⟩

end Verif
