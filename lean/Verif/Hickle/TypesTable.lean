import Verif.Hickle.LoadNode
/-!
# The types table for any classes and loader names

The invariant of `DumpSpec`, for arbitrary loader names instead of those of the built-in classes: `nm cls` is the name the class is
stored with first.
-/
namespace Verif
namespace TT

/-- entry of class `cls` in the types table -/
def EntryOk (nm : Cls → String) (S : Store) (cls : Cls) (e : NodeId) : Prop :=
  ∃ nd b bn, S[e]? = some nd ∧ nd.body = .dset (.pickleCls cls) ∧
    Assoc.get? nd.attrs "base_type" = some (.ref b) ∧ S[b]? = some bn ∧ bn.name = ps (nm cls)

theorem EntryOk.ext {nm : Cls → String} {S S' : Store} {cls e} (hx : SExt S S') (h : EntryOk nm S cls e) : EntryOk nm S' cls e := by
  obtain ⟨nd, b, bn, h1, h2, h3, h4, h5⟩ := h
  obtain ⟨nd', e1, l1⟩ := hx _ _ h1
  obtain ⟨bn', e2, l2⟩ := hx _ _ h4
  exact ⟨nd', b, bn', e1, l1.dset _ h2, by rw [l1.attrs]; exact h3, e2, by rw [l2.name]; exact h5⟩

/-- the tables of the `ReferenceManager` agree with the file -/
structure TInv0 (nm : Cls → String) (c : DCtx) (s : DState) : Prop where
  tab : ∃ ls, s.store.links c.table = some ls
  tl : ∀ cls e, Assoc.get? s.tlinks cls = some e → EntryOk nm s.store cls e
  bl : ∀ b n, Assoc.get? s.blinks b = some n → ∃ nd, s.store[n]? = some nd ∧ nd.name = ps b

/-- a member of the types table: a base type, or the entry the manager knows for its class -/
def TabEnt (S : Store) (tl : List (Cls × NodeId)) (n : NodeId) : Prop :=
  ∃ nd, S[n]? = some nd ∧ (nd.body = .dset (.null "S1") ∨
    ∃ cls, nd.body = .dset (.pickleCls cls) ∧ Assoc.get? tl cls = some n)

structure TInv (nm : Cls → String) (c : DCtx) (s : DState) : Prop extends TInv0 nm c s where
  ents : ∀ ls, s.store.links c.table = some ls → ∀ p ∈ ls, TabEnt s.store s.tlinks p.2

theorem TabEnt.ext {S S' : Store} {tl n} (hx : SExt S S') (h : TabEnt S tl n) : TabEnt S' tl n := by
  obtain ⟨nd, h1, h2⟩ := h
  obtain ⟨nd', e1, l1⟩ := hx _ _ h1
  refine ⟨nd', e1, ?_⟩
  rcases h2 with h2 | ⟨cls, h2, h3⟩
  · exact .inl (l1.dset _ h2)
  · exact .inr ⟨cls, l1.dset _ h2, h3⟩

theorem TInv0.ext {nm : Cls → String} {c : DCtx} {s s' : DState} (h : TInv0 nm c s) (hx : SExt s.store s'.store)
    (ht : s'.tlinks = s.tlinks) (hb : s'.blinks = s.blinks) : TInv0 nm c s' where
  tab := by
    obtain ⟨ls, hl⟩ := h.tab
    obtain ⟨nd, h1, h2⟩ := Store.links_eq hl
    obtain ⟨nd', e1, l1⟩ := hx _ _ h1
    obtain ⟨l', e2⟩ := l1.group _ h2
    exact ⟨_, Store.links_of e1 e2⟩
  tl cls e he := (h.tl cls e (ht ▸ he)).ext hx
  bl b n hn := by
    obtain ⟨nd, h1, h2⟩ := h.bl b n (hb ▸ hn)
    obtain ⟨nd', e1, l1⟩ := hx _ _ h1
    exact ⟨nd', e1, by rw [l1.name]; exact h2⟩

theorem TInv.ext {nm : Cls → String} {c : DCtx} {s s' : DState} (h : TInv nm c s) (hx : SExt s.store s'.store)
    (ht : s'.tlinks = s.tlinks) (hb : s'.blinks = s.blinks) (hl : s'.store.links c.table = s.store.links c.table) : TInv nm c s' where
  toTInv0 := h.toTInv0.ext hx ht hb
  ents ls hls p hp := by rw [ht]; exact (h.ents ls (hl ▸ hls) p hp).ext hx

theorem baseEntry_ok {nm : Cls → String} {c : DCtx} {b : String} {s s1 : DState} {n : NodeId} (hT : TInv0 nm c s)
    (h : baseEntry c b s = (.ok n, s1)) :
    TInv0 nm c s1 ∧ (∃ nd, s1.store[n]? = some nd ∧ nd.name = ps b) ∧ SExt s.store s1.store ∧
      (∀ m nd, m ≠ c.table → s.store[m]? = some nd → s1.store[m]? = some nd) ∧
      s1.heap = s.heap ∧ s1.memo = s.memo ∧ s1.reg = s.reg ∧ s1.tlinks = s.tlinks ∧
      (∀ ls, s.store.links c.table = some ls → ∃ ls', s1.store.links c.table = some (ls ++ ls') ∧
        ∀ p ∈ ls', ∃ nd, s1.store[p.2]? = some nd ∧ nd.body = .dset (.null "S1")) := by
  unfold baseEntry at h
  rw [M.bind_of_ok (M.get_apply s)] at h
  cases hb : Assoc.get? s.blinks b with
  | some b' =>
    simp [hb] at h
    obtain ⟨rfl, rfl⟩ := h
    exact ⟨hT, hT.bl _ _ hb, SExt.refl _, fun _ _ _ h => h, rfl, rfl, rfl, rfl, fun ls h => ⟨[], by simpa using h, by simp⟩⟩
  | none =>
    simp only [hb] at h
    rw [M.bind_ok_iff] at h
    obtain ⟨n', s2, h1, h2⟩ := h
    simp only [M.bind_of_ok (M.modify_apply _ _), M.pure_apply, Prod.mk.injEq, Except.ok.injEq] at h2
    obtain ⟨rfl, rfl⟩ := h2
    obtain ⟨_, hc⟩ := mkDset_ok h1
    have hs2 : s2 = { s with store := s2.store } := by obtain ⟨_, _, e, _⟩ := hc; exact e
    obtain ⟨nd, ls, e1, e2, e3, e4, e5, e6, e7, e8⟩ := hc.facts
    have hTs2 : TInv0 nm c s2 := hT.ext e7 (by rw [hs2]) (by rw [hs2])
    refine ⟨⟨hTs2.tab, hTs2.tl, ?_⟩, ⟨_, e5, rfl⟩, e7, ?_, ?_⟩
    · intro b2 m hm
      simp only [Assoc.get?_put] at hm
      split at hm
      · next hbb => simp at hm; subst hm; subst hbb; exact ⟨_, e5, rfl⟩
      · exact hTs2.bl _ _ hm
    · intro m md hm hmd
      have := lt_of_getElem? hmd
      simp only []
      rw [e6 m hm (by omega)]; exact hmd
    · refine ⟨by rw [hs2], by rw [hs2], by rw [hs2], by rw [hs2], ?_⟩
      intro ls0 hls0
      obtain ⟨nd0, k1, k2⟩ := Store.links_eq hls0
      rw [e1] at k1; simp at k1; subst k1
      rw [e2] at k2; simp at k2; subst k2
      refine ⟨[(ps b, n')], Store.links_of e4 rfl, ?_⟩
      intro p hp
      simp at hp; subst hp
      exact ⟨_, e5, rfl⟩

theorem typeEntryNode_ok {nm : Cls → String} {c : DCtx} {cls : Cls} {base : String} {s s1 : DState} {e : NodeId} (hT : TInv nm c s)
    (hb : Assoc.get? s.tlinks cls = none → base = nm cls) (h : typeEntryNode c cls base s = (.ok e, s1)) :
    TInv nm c s1 ∧ EntryOk nm s1.store cls e ∧ SExt s.store s1.store ∧
      (∀ m nd, m ≠ c.table → s.store[m]? = some nd → s1.store[m]? = some nd) ∧
      s1.heap = s.heap ∧ s1.memo = s.memo ∧ s1.reg = s.reg ∧ Assoc.get? s1.tlinks cls = some e ∧
      (∀ k, k ≠ cls → Assoc.get? s1.tlinks k = Assoc.get? s.tlinks k) ∧
      (Assoc.get? s.tlinks cls = none → ∃ ls, s1.store.links c.table = some ls ∧ ∃ p ∈ ls, p.2 = e) := by
  unfold typeEntryNode at h
  rw [M.bind_of_ok (M.get_apply s)] at h
  cases ht : Assoc.get? s.tlinks cls with
  | some e' =>
    simp [ht] at h
    obtain ⟨rfl, rfl⟩ := h
    exact ⟨hT, hT.tl _ _ ht, SExt.refl _, fun _ _ _ h => h, rfl, rfl, rfl, ht, fun _ _ => rfl, fun h => by simp at h⟩
  | none =>
    simp only [ht] at h
    have hbn := hb ht
    subst hbn
    split at h
    · simp at h
    · split at h
      · simp at h
      obtain ⟨ls, hls⟩ := hT.tab
      simp only [hls] at h
      rw [M.bind_ok_iff] at h
      obtain ⟨e', s2, h1, h⟩ := h
      rw [M.bind_ok_iff] at h
      obtain ⟨b, s3, h2, h⟩ := h
      rw [M.bind_ok_iff] at h
      obtain ⟨x, s4, h3, h⟩ := h
      simp only [M.bind_of_ok (M.modify_apply _ _), M.pure_apply, Prod.mk.injEq, Except.ok.injEq] at h
      obtain ⟨rfl, rfl⟩ := h
      obtain ⟨_, hc⟩ := mkDset_ok h1
      have hs2 : s2 = { s with store := s2.store } := by obtain ⟨_, _, e, _⟩ := hc; exact e
      obtain ⟨nd, ls', a1, a2, a3, a4, a5, a6, a7, a8⟩ := hc.facts
      have hT2 : TInv0 nm c s2 := hT.toTInv0.ext a7 (by rw [hs2]) (by rw [hs2])
      obtain ⟨hT3, ⟨bn, b1, b2⟩, b3, b4, b5, b6, b7, b8, b9⟩ := baseEntry_ok hT2 h2
      have h4 := setAttr_ok h3
      have he3 : s3.store[e']? = some ⟨digits ls.length, [], .dset (.pickleCls cls)⟩ := b4 _ _ a8 a5
      have hs4e : s4.store[e']? = some ⟨digits ls.length, [("base_type", .ref b)], .dset (.pickleCls cls)⟩ := by
        rw [h4]; exact Store.getElem?_setAttr_self he3 _ _
      have hs4 : ∀ m, m ≠ e' → s4.store[m]? = s3.store[m]? := by
        intro m hm; rw [h4]; exact Store.getElem?_setAttr_ne hm _ _
      have hlt := fun m md (h : s.store[m]? = some md) => lt_of_getElem? h
      have hext : SExt s.store s4.store := by
        intro m md hm
        obtain ⟨nd', g1, g2⟩ := (a7.trans b3) m md hm
        refine ⟨nd', ?_, g2⟩
        rw [hs4 m (by have := hlt m md hm; omega)]; exact g1
      have hsame : ∀ m nd, m ≠ c.table → s.store[m]? = some nd → s4.store[m]? = some nd := by
        intro m md hm hmd
        have hl := hlt m md hmd
        rw [hs4 m (by omega)]
        exact b4 _ _ hm (by rw [a6 m hm (by omega)]; exact hmd)
      have hentry : EntryOk nm s4.store cls e' := by
        by_cases hbe : b = e'
        · subst hbe
          refine ⟨_, _, _, hs4e, rfl, rfl, hs4e, ?_⟩
          rw [he3] at b1; simp at b1; subst b1; exact b2
        · exact ⟨_, b, bn, hs4e, rfl, rfl, by rw [hs4 b hbe]; exact b1, b2⟩
      have hm : s4.heap = s3.heap ∧ s4.memo = s3.memo ∧ s4.reg = s3.reg ∧ s4.tlinks = s3.tlinks ∧ s4.blinks = s3.blinks := by
        rw [h4]; simp
      have hm2 : s2.heap = s.heap ∧ s2.memo = s.memo ∧ s2.reg = s.reg ∧ s2.tlinks = s.tlinks := by
        rw [hs2]; simp
      have hls' : ls' = ls := by
        obtain ⟨nd0, k1, k2⟩ := Store.links_eq hls
        rw [a1] at k1; simp at k1; subst k1
        rw [a2] at k2; simp at k2; exact k2
      refine ⟨⟨⟨?_, ?_, ?_⟩, ?_⟩, hentry, hext, hsame, ?_, ?_, ?_, Assoc.get?_put_self _ _ _, ?_, ?_⟩
      · obtain ⟨ls3, g⟩ := hT3.tab
        obtain ⟨nd3, g1, g2⟩ := Store.links_eq g
        refine ⟨ls3, Store.links_of (nd := nd3) ?_ g2⟩
        simp only []
        rw [hs4 _ (Ne.symm a8)]; exact g1
      · intro cls2 e2 he2
        simp only [Assoc.get?_put] at he2
        split at he2
        · next hcc => simp at he2; subst he2; subst hcc; exact hentry
        · rw [hm.2.2.2.1, b8, hm2.2.2.2] at he2
          exact (hT.tl _ _ he2).ext hext
      · intro b' m hm'
        simp only [] at hm'
        rw [hm.2.2.2.2] at hm'
        obtain ⟨nd', g1, g2⟩ := hT3.bl _ _ hm'
        simp only []
        by_cases hme : m = e'
        · subst hme
          rw [he3] at g1; simp at g1; subst g1
          exact ⟨_, hs4e, g2⟩
        · exact ⟨nd', by rw [hs4 m hme]; exact g1, g2⟩
      · intro lsT hlsT p hp
        obtain ⟨lsN, n1, n2⟩ := b9 (ls' ++ [(digits ls.length, e')]) (Store.links_of a4 rfl)
        have : s4.store.links c.table = s3.store.links c.table := Store.links_congr (hs4 _ (Ne.symm a8))
        simp only [] at hlsT ⊢
        rw [this, n1] at hlsT
        simp only [Option.some.injEq] at hlsT
        subst hlsT
        simp only [List.append_assoc, List.mem_append, List.mem_singleton] at hp
        rcases hp with hp | rfl | hp
        · obtain ⟨md, g1, g2⟩ := (hT.ents ls hls p (hls' ▸ hp)).ext hext
          refine ⟨md, g1, ?_⟩
          rcases g2 with g2 | ⟨cls2, g2, g3⟩
          · exact .inl g2
          · refine .inr ⟨cls2, g2, ?_⟩
            rw [Assoc.get?_put_ne]
            · rw [hm.2.2.2.1, b8, hm2.2.2.2]; exact g3
            · rintro rfl; rw [ht] at g3; simp at g3
        · exact ⟨_, hs4e, .inr ⟨cls, rfl, Assoc.get?_put_self _ _ _⟩⟩
        · obtain ⟨md, g1, g2⟩ := n2 p hp
          have : p.2 ≠ e' := by
            intro hc; rw [hc, he3] at g1; simp at g1; subst g1; simp at g2
          exact ⟨md, by rw [hs4 _ this]; exact g1, .inl g2⟩
      · exact hm.1.trans (b5.trans hm2.1)
      · exact hm.2.1.trans (b6.trans hm2.2.1)
      · exact hm.2.2.1.trans (b7.trans hm2.2.2.1)
      · intro k hk
        simp only []
        rw [Assoc.get?_put_ne _ _ (Ne.symm hk), hm.2.2.2.1, b8, hm2.2.2.2]
      · intro _
        obtain ⟨lsN, n1, n2⟩ := b9 (ls' ++ [(digits ls.length, e')]) (Store.links_of a4 rfl)
        have : s4.store.links c.table = s3.store.links c.table := Store.links_congr (hs4 _ (Ne.symm a8))
        exact ⟨_, by simp only []; rw [this]; exact n1, (digits ls.length, e'), by simp, rfl⟩

end TT
end Verif
