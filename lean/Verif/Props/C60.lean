import Verif.Props.C59
import Verif.Props.Same
import Verif.Props.C08
import Verif.Hickle.DumpTotal
/-!
# C60 Dumping what was loaded gives the same file again

`dump(load(f), g)` makes of `g` what `dump(x, f)` made of `f`.
-/
namespace Verif

variable {P : Nat → Prop}

/-- no part of the graph is a set with more than one element: sets are written in the order of enumeration, which the model leaves open -/
def SmallSets (H : Heap) : Prop := ∀ (c : Addr) (o : Obj) items, H[c]? = some o → o.val = .set items → items.length ≤ 1

/-- what has no identity is not remembered -/
theorem identity_of_memo {env : Env} {o : Obj} (hok : ObjOk env o) (hm : (expected env o.cls).2.memoise = true) : o.val.hasIdentity = true := by
  cases hi : o.val.hasIdentity with
  | true => rfl
  | false =>
    exfalso
    obtain ⟨cl, v⟩ := o
    cases cl with
    | user k =>
      have key : ∀ l : List Cls, ∀ e, firstStd l = some e → (e.base = "int" ∨ e.base = "float" ∨ e.base = "complex") → e.memoise = false := by
        intro l e he hb
        obtain ⟨c, p, hs⟩ := firstStd_mem he
        cases c <;> simp [stdReg] at hs <;> obtain ⟨rfl, rfl⟩ := hs <;> simp_all
      have hb : (expected env (.user k)).2.base = "int" ∨ (expected env (.user k)).2.base = "float" ∨ (expected env (.user k)).2.base = "complex" := by
        have hok' : UserOk env k v := hok
        cases v <;> simp [Val.hasIdentity] at hi <;> simp only [UserOk] at hok'
        · exact hok'.2.elim
        · exact hok'.2.elim
        · exact .inl hok'.2.1
        · exact .inr (.inl hok'.2.1)
        · exact .inr (.inr hok'.2.1)
        · exact hok'.2.elim
      unfold expected at hm hb
      split at hm
      · next e he =>
        rw [he] at hb
        rw [key _ e he hb] at hm; cases hm
      · next he => rw [he] at hb; simp at hb
    | _ => cases v <;> first | (simp [Val.hasIdentity] at hi; done) | (simp [ObjOk, NativeOk] at hok; done) | (simp [expected, firstStd, stdReg, Cls.mro] at hm; done)

theorem joinDt_eq {d : DT} : ∀ {vs : List NpVal}, (∀ v ∈ vs, v.dt.rank ≤ d.rank) → (∃ v ∈ vs, v.dt = d) → joinDt vs = some d
  | [], _, ⟨_, h, _⟩ => by cases h
  | v :: vs, h1, ⟨w, h2, h3⟩ => by
    have key : ∀ (vs : List NpVal) (e : DT), (∀ v ∈ vs, v.dt.rank ≤ d.rank) → e.rank ≤ d.rank → (e = d ∨ ∃ v ∈ vs, v.dt = d) → vs.foldl (fun d w => d.join w.dt) e = d := by
      intro vs
      induction vs with
      | nil =>
        intro e _ _ h
        rcases h with h | ⟨_, h, _⟩
        · exact h
        · cases h
      | cons v vs ih =>
        intro e k1 k2 k3
        have kv := k1 v (.head _)
        refine ih _ (fun w hw => k1 w (.tail _ hw)) ?_ ?_
        · show (e.join v.dt).rank ≤ d.rank
          rcases DT.join_eq e v.dt with h | h <;> rw [h] <;> assumption
        · have e1 := rank_join_left e v.dt
          have e2 := rank_join_right e v.dt
          have top : d.rank ≤ (e.join v.dt).rank → e.join v.dt = d := fun h => DT.rank_inj (Nat.le_antisymm (by rcases DT.join_eq e v.dt with h | h <;> rw [h] <;> assumption) h)
          rcases k3 with rfl | ⟨w, hw, rfl⟩
          · exact .inl (top e1)
          · rcases List.mem_cons.1 hw with rfl | hw
            · exact .inl (top e2)
            · exact .inr ⟨w, hw, rfl⟩
    simp only [joinDt]
    refine congrArg some (key vs v.dt (fun w hw => h1 w (.tail _ hw)) (h1 v (.head _)) ?_)
    rcases List.mem_cons.1 h2 with rfl | h2
    · exact .inl h3
    · exact .inr ⟨w, h2, h3⟩

/-- numbers that were converted to one type -/
theorem numAlike_of_copy {H L : Heap} {R N Q b a} (hc : CopyBy H L R N Q b a) {d : DT} {xs as : List Addr} (h : All2 (N d) xs as) (hd : ∃ c ∈ as, numDt H c = some d) : NumAlike H L as xs := by
  have key : ∃ vs ws : List NpVal, All2 (NumAt H) as vs ∧ All2 (NumAt L) xs ws ∧ vs.map (castNum d) = ws.map some ∧ ∀ w ∈ ws, castNum d w = some w ∧ w.dt = d := by
    clear hd
    induction h with
    | nil => exact ⟨[], [], .nil, .nil, rfl, by simp⟩
    | @cons x c _ _ h1 _ ih =>
      obtain ⟨vs, ws, k1, k2, k3, k4⟩ := ih
      obtain ⟨o, o', e1, e2, v, w, e3, e4, e5, _⟩ := hc.2.2.1 d x c h1
      obtain ⟨n1, n2⟩ := castNum_native e5
      refine ⟨v :: vs, w :: ws, .cons ⟨o, e1, e3⟩ k1, .cons ⟨o', e2, ?_⟩ k2, by simp only [List.map_cons, e5, k3], ?_⟩
      · rw [e4]; cases w <;> rfl
      · intro u hu
        rcases List.mem_cons.1 hu with rfl | hu
        · refine ⟨?_, n2⟩
          rw [← n2]
          cases u with
          | i x => simp only [NpVal.dt, castNum]; rw [if_pos (by simpa [NpVal.cls, NativeOk] using n1)]
          | _ => rfl
        · exact k4 u hu
  obtain ⟨vs, ws, k1, k2, k3, k4⟩ := key
  obtain ⟨c, hc1, hc2⟩ := hd
  have hw : ws.map (castNum d) = ws.map some := List.map_congr_left fun w hw => (k4 w hw).1
  have hv : ∀ v ∈ vs, ∃ w, castNum d v = some w := by
    intro v hv
    have : castNum d v ∈ ws.map some := k3 ▸ List.mem_map_of_mem hv
    obtain ⟨w, _, e⟩ := List.mem_map.1 this
    exact ⟨w, e.symm⟩
  refine ⟨vs, ws, d, k1, k2, joinDt_eq (fun v h => ?_) ?_, joinDt_eq (fun w h => by rw [(k4 w h).2]; exact Nat.le_refl _) ?_, by rw [k3, hw]⟩
  · obtain ⟨w, e⟩ := hv v h; exact castNum_rank e
  · obtain ⟨v, h1, o, h2, h3⟩ := k1.mem hc1
    refine ⟨v, h1, ?_⟩
    simp [numDt, h2, h3] at hc2
    exact hc2
  · cases ws with
    | nil => cases k2; cases h; cases hc1
    | cons w ws => exact ⟨w, .head _, (k4 w (.head _)).2⟩

theorem items_of_copy {H L : Heap} {R N Q b a} (hc : CopyBy H L R N Q b a) {xs as : List Addr} (h : ItemsCopy H R N xs as) : ItemsAlike H L (fun c x => R x c) as xs := by
  rcases h with ⟨h, _⟩ | ⟨d, h1, h2⟩
  · exact .inl h.flip
  · exact .inr (numAlike_of_copy hc h2 h1)

/-- keys that are rebuilt from their text are stored by name -/
theorem keySlot_of_nameKey {env : Env} {o : Obj} (h : o.nameKey = true) (hk : KeyOk env o) : keySlot env o ≠ .ok none := by
  intro hs
  have hp := plainKey_of_keySlot hk hs
  clear hk
  obtain ⟨cl, v⟩ := o
  cases cl <;> cases v <;> first | (simp [Obj.nameKey, Obj.plainKey] at h hp; done) | skip
  case str.str s =>
    have h' : strSlash s = false := by simpa [Obj.nameKey] using h
    simp [keySlot, h'] at hs
  case bytes.bytes b =>
    have h' : byteSlash b = false ∧ (utf8Decode b).isSome = true := by simpa [Obj.nameKey] using h
    obtain ⟨s, hd⟩ := Option.isSome_iff_exists.1 h'.2
    simp [keySlot, h'.1, hd] at hs

theorem entry_of_copy {env : Env} {H L : Heap} {R N Q b a} (hc : CopyBy H L R N Q b a) {e e' : Addr × Addr} (hk : ∀ q, H[e.1]? = some q → KeyOk env q)
    (h : EntryCopy H R N Q e' e) : EntryAlike env H L (fun c x => R x c) e e' := by
  rcases h with ⟨h1, h2⟩ | ⟨⟨o, h1, h2⟩, h3⟩
  · obtain ⟨o, k1, k2, k3⟩ := hc.2.2.2.1 _ _ h1
    exact .inl ⟨⟨o, k1, k2, keySlot_of_nameKey k3 (hk o k1)⟩, h2⟩
  · rcases h3 with ⟨h3, _⟩ | ⟨d, h3, h4⟩
    · cases h3 with
      | cons r1 h => cases h with
        | cons r2 _ => exact .inr (.inl ⟨r1, r2⟩)
    · refine .inr (.inr ⟨numAlike_of_copy hc h4 h3, ?_⟩)
      cases h4 with
      | cons r1 h => 
        obtain ⟨q, q', e1, e2, v, w, e3, e4, e5, _⟩ := hc.2.2.1 d _ _ r1
        rw [h1] at e1; cases e1
        refine ⟨⟨o, h1, ?_⟩, q', e2, ?_⟩
        · obtain ⟨cl, val⟩ := o
          cases cl <;> cases val <;> first | (simp [exactNum] at e3; done) | (simp [Obj.plainKey] at h2; done) | rfl
        · rw [e4]; cases w <;> rfl

/-- a copy is dumped like the original -/
theorem alike_of_copy {env : Env} {H L : Heap} {R N Q b a} (hc : CopyBy H L R N Q b a) (hg : GoodHeap P env H) (hs : SmallSets H) : Alike env H L fun c x => R x c := by
  intro c x h
  obtain ⟨o, o', h1, h2, h3, h4⟩ := hc.2.1 x c h
  refine ⟨o, o', h1, h2, h3.symm, ?_⟩
  obtain ⟨cl, v⟩ := o
  obtain ⟨cl', v'⟩ := o'
  simp only at h4 ⊢
  cases h4 with
  | atom h => exact .atom h
  | seq h => exact .seq (items_of_copy hc h)
  | @set xs as bs h hp =>
    have hl := hs c _ as h1 rfl
    have : bs = as := by
      match as, bs, hl, hp with
      | [], bs, _, hp => exact hp.eq_nil
      | [x], bs, _, hp => exact hp.eq_singleton
    subst this
    exact .set (items_of_copy hc h)
  | dict h => exact .dict (h.flip.imp fun e e' he _ h => entry_of_copy hc (fun q hq => (hg.keys c _ _ h1 rfl).2 _ _ he q hq) h)
  | oarr h => exact .oarr h.flip
  | sparse r1 r2 r3 => exact .sparse r1 r2 r3

/-- **C60.**  After a dump, `load` returns an object that every call of `dump` takes for the original: whatever the file, the path, the options
and the keyword arguments, the outcome and the file afterwards are the same as for the original.
*Missing*: sets with more than one element (`C60_violated_set`), the key `False` (`C60_violated_false`). -/
theorem C60_partial {a : DumpArgs} {s s' : Session} (h : GoodDump P a s s') (hs : SmallSets a.heap) :
    Loads P a.env s'.store a.path fun L b =>
      ∀ (a2 : DumpArgs) (t : Session) (os : List (String × Bool)), a2.env = a.env → a2.heap = a.heap → a2.obj = a.obj → a2.options = some os →
        RegInv P t.reg → dumpTop { a2 with heap := L, obj := b } t = dumpTop a2 t := by
  refine h.loads.imp ?_
  rintro L b ⟨⟨R, N, Q, hc⟩, _⟩ a2 t os he hh ho hos ht
  refine (dumpTop_mirror (R := fun c x => R x c) (he ▸ h.env) ?_ hos ?_ ?_ ?_ t ht).symm
  · intro o hmem
    rw [hh] at hmem
    obtain ⟨i, hi⟩ := List.getElem?_of_mem hmem
    rw [he]; exact (h.graph.cls i o hi).1
  · rw [he, hh]; exact alike_of_copy hc h.graph hs
  · intro x y x' y' o h1 h2 h3 h4
    rw [hh] at h3
    rw [he] at h4
    constructor
    · rintro rfl
      exact hc.2.2.2.2.2 y y' x o h1 h2 h3 (identity_of_memo (h.graph.cls x o h3).2 h4)
    · rintro rfl
      exact hc.2.2.2.2.1 y x x' (.inl h1) (.inl h2)
  · rw [ho]; exact hc.1

/-- In particular, dumping the loaded object where the original was dumped, by another process, gives the same file. -/
theorem C60_again_partial {a : DumpArgs} {s s' : Session} (h : GoodDump P a s s') (hs : SmallSets a.heap) {os} (hos : a.options = some os) :
    Loads P a.env s'.store a.path fun L b =>
      ∀ r, Reached P r → (dumpTop { a with heap := L, obj := b } { s with reg := r }).1 = .ok () ∧ (dumpTop { a with heap := L, obj := b } { s with reg := r }).2.store = s'.store := by
  refine (C60_partial h hs).imp fun L b hl r hr => ?_
  rw [hl a { s with reg := r } os rfl rfl rfl hos hr.inv]
  obtain ⟨h1, h2, _⟩ := dumpTop_two h.env (fun o hmem => by
    obtain ⟨i, hi⟩ := List.getElem?_of_mem hmem
    exact (h.graph.cls i o hi).1) hos s { s with reg := r } ⟨rfl, rfl, rfl, rfl, h.file.reg, hr.inv⟩
  rw [h.returns] at h1 h2
  exact ⟨h1.symm, h2.store⟩

/-! ### examples -/

/-- a dict with keys of several kinds, a list of numbers of different types, a string that occurs twice -/
def C60.heap : Heap := [
  ⟨.int, .int 1⟩, ⟨.float, .float (.fin false 5 (-1))⟩, ⟨.str, .str (ps "ab")⟩, ⟨.list, .seq [0, 1, 0]⟩, ⟨.str, .str (ps "x/y")⟩, ⟨.npInt64, .np (.i 9)⟩, ⟨.bool, .bool true⟩,
  ⟨.dict, .dict [(4, 3), (0, 2), (5, 6), (2, 3)]⟩, ⟨.tuple, .seq [7, 2, 2, 0]⟩]

example : (∃ s', GoodDump (fun _ => True) (Ex.args C60.heap 8) Ex.file0 s') ∧ SmallSets C60.heap ∧ (Ex.args C60.heap 8).options = some [] := by
  refine ⟨Ex.good_of (by decide +kernel), ?_, rfl⟩
  intro c o items hc ho
  have : ∀ o ∈ C60.heap, ∀ items, o.val = .set items → items.length ≤ 1 := by
    intro o hm items
    simp only [C60.heap, List.mem_cons, List.not_mem_nil, or_false] at hm
    rcases hm with rfl | rfl | rfl | rfl | rfl | rfl | rfl | rfl | rfl <;> intro h <;> cases h
  exact this o (List.mem_of_getElem? hc) items ho

/-- what the kernel computes: the loaded object differs from the original, but the file it is dumped to does not -/
def C60.again (H : Heap) (x : Addr) : Option (Bool × Bool) :=
  match loadTop ⟨Ex.env, [], id, 100⟩ (dumpTop (Ex.args H x) Ex.file0).2 with
  | (.ok (L, b), _) => some (decide ((dumpTop (Ex.args L b) Ex.file0).2.store = (dumpTop (Ex.args H x) Ex.file0).2.store), L.any fun o => o.val == .np (.f (.fin false 5 (-1))))
  | _ => none

example : C60.again C60.heap 8 = some (true, true) := by decide +kernel

/-! ### violation -/

/-- **C60 is violated** by the key `False`, which is loaded as `True` (C08): the second file names it `True`. -/
theorem C60_violated_false : C60.again [⟨.bool, .bool false⟩, ⟨.noneType, .none⟩, ⟨.dict, .dict [(0, 1)]⟩] 2 = some (false, false) := by decide +kernel

/-- the loaded copy of the set of `C59.set1`, as a process may enumerate it that gives the strings other hashes -/
def C60.set : Heap := [⟨.tuple, .seq []⟩, ⟨.str, .str (ps "a")⟩, ⟨.int, .int 1⟩, ⟨.set, .set [2, 1]⟩]

/-- **C60 is violated** by sets that are not enumerated in the order in which they were written. -/
theorem C60_violated_set :
    (match loadTop ⟨Ex.env, [], id, 100⟩ (dumpTop (Ex.args C59.set1 2) Ex.file0).2 with
      | (.ok (L, b), _) => decide (b = 3 ∧ L = C60.set.set 3 ⟨.set, .set [1, 2]⟩)
      | _ => false) = true ∧
    Ex.isOk (dumpTop (Ex.args C60.set 3) Ex.file0).1 = true ∧
    (dumpTop (Ex.args C60.set 3) Ex.file0).2.store ≠ (dumpTop (Ex.args C59.set1 2) Ex.file0).2.store := ⟨by decide +kernel, by decide +kernel, by decide +kernel⟩

end Verif
