import Verif.Props.C09
/-!
# C08 Dict keys come back with the same type and value

True of the code for all keys but `False` and numpy numbers with numbers as values: `C08_partial`.
`C08_violated_false`, `C08_violated_falses` and `C08_violated_numpy` are the counterexamples to the full property.
-/
namespace Verif

variable {P : Nat → Prop}

/-- strings, bytes, None, booleans and Python numbers -/
def Obj.basicKey : Obj → Bool
  | ⟨.str, .str _⟩ | ⟨.bytes, .bytes _⟩ => true
  | o => o.plainKey

theorem Obj.nameKey_basic {o : Obj} (h : o.nameKey = true) : o.basicKey = true := by
  obtain ⟨cl, v⟩ := o
  cases cl <;> cases v <;> first | rfl | exact h

theorem Obj.basicKey_atom {o : Obj} (h : o.basicKey = true) : o.val.isAtom = true := by
  obtain ⟨cl, v⟩ := o
  cases cl <;> cases v <;> first | rfl | simp [Obj.basicKey, Obj.plainKey] at h

theorem basicKey_num {o : Obj} (h : o.basicKey = true) (hp : o.plainKey = false) : exactNum o = none := by
  obtain ⟨cl, v⟩ := o
  cases cl <;> cases v <;> first | rfl | simp [Obj.basicKey, Obj.plainKey] at h hp

/-- **C08, partial.**  A dict at the end of any path loads as a dict of the same class with as many entries, in the
same order.  A key of type `str`, `bytes`, `int`, `float`, `complex`, `bool` or `None` is identical; any other key is a
copy of the same type and value, unless it is a numpy number.
Missing: the key `False` and instances of subclasses of `str` (excluded by `GoodDump`; for the latter see `C12_violated_key`), numpy numbers with a number as value (these keep their value only). -/
theorem C08_partial {a : DumpArgs} {s s' : Session} (h : GoodDump P a s s') {π : List Step} {c : Addr} {cl : Cls} {es : List (Addr × Addr)}
    (hf : follow a.heap a.obj π = some c) (hc : a.heap[c]? = some ⟨cl, .dict es⟩) :
    Loads P a.env s'.store a.path fun L b => ∃ (x : Addr) (es' : List (Addr × Addr)), follow L b π = some x ∧ L[x]? = some ⟨cl, .dict es'⟩ ∧
      es'.length = es.length ∧ ∀ (i : Nat) (k v : Addr), es[i]? = some (k, v) → ∃ k' v' : Addr, es'[i]? = some (k', v') ∧ PartCopy a.heap L v' v ∧
        ∀ o, a.heap[k]? = some o →
          (o.basicKey = true → L[k']? = some o) ∧
          (o.basicKey = false → PartCopy a.heap L k' k) ∧
          (o.basicKey = false → numDt a.heap k = none ∨ numDt a.heap v = none → Copy a.heap L k' k) := by
  refine h.loads.imp fun L b hl => ?_
  obtain ⟨⟨R, N, Q, hl⟩, _⟩ := hl
  rcases hl.follow π (.inl hl.1) with ⟨_, h2⟩ | ⟨x, z, h1, h2, h3⟩
  · rw [hf] at h2; simp at h2
  · rw [hf] at h2; simp at h2; subst h2
    have hR := hl.shared hc rfl h3
    obtain ⟨⟨cl0, val⟩, ⟨cl', val'⟩, e1, e2, e3, e4⟩ := hl.2.1 x c hR
    rw [hc] at e1; simp at e1; obtain ⟨rfl, rfl⟩ := e1
    simp only at e3 e4
    subst e3
    cases e4 with
    | atom ha => simp [Val.isAtom] at ha
    | @dict es' _ hi =>
      refine ⟨x, es', h1, e2, hi.length, fun i k v hkv => ?_⟩
      rcases hi.get i with ⟨_, g2⟩ | ⟨⟨k', v'⟩, z, g1, g2, g3⟩
      · rw [hkv] at g2; simp at g2
      · rw [hkv] at g2; simp at g2; subst g2
        rcases g3 with ⟨q1, q2⟩ | ⟨⟨p, p1, p2⟩, hi⟩
        · obtain ⟨p, p1, p2, p3⟩ := hl.2.2.2.1 _ _ q1
          replace p3 := Obj.nameKey_basic p3
          refine ⟨k', v', g1, hl.partR q2, fun o ho => ?_⟩
          simp only at p1
          rw [ho] at p1; simp at p1; subst p1
          exact ⟨fun _ => p2, fun hn => by rw [p3] at hn; simp at hn, fun hn => by rw [p3] at hn; simp at hn⟩
        · simp only at p1 hi
          rcases hi with ⟨hi, _⟩ | ⟨d, hd, hi⟩
          · cases hi with
            | cons r1 hi => cases hi with
              | cons r2 _ =>
                refine ⟨k', v', g1, hl.partR r2, fun o ho => ⟨fun hn => ?_, fun _ => hl.partR r1, fun _ _ => ⟨R, N, Q, r1, hl.2⟩⟩⟩
                exact hl.atom (.inl r1) ho (Obj.basicKey_atom hn)
          · cases hi with
            | cons r1 hi => cases hi with
              | cons r2 _ =>
                have num : ∀ {x c d}, N d x c → ∃ o v, a.heap[c]? = some o ∧ exactNum o = some v := by
                  intro x c d hn
                  obtain ⟨o, o', f1, _, v, w, f2, _⟩ := hl.2.2.1 d x c hn
                  exact ⟨o, v, f1, f2⟩
                obtain ⟨o1, w1, n1, n2⟩ := num r1
                obtain ⟨o2, w2, m1, m2⟩ := num r2
                refine ⟨k', v', g1, hl.partN r2, fun o ho => ⟨fun hn => ?_, fun _ => hl.partN r1, fun _ hnn => ?_⟩⟩
                · rw [ho] at n1 p1; simp at n1 p1; subst n1; subst p1
                  have := basicKey_num hn p2
                  rw [n2] at this; simp at this
                · simp [numDt, n1, n2, m1, m2] at hnn

/-- keys of all the types, and a tuple -/
def C08.heap : Heap := [
  ⟨.str, .str (ps "x/y")⟩, ⟨.bytes, .bytes [255]⟩, ⟨.int, .int (-5)⟩, ⟨.float, .float (.fin false 3 (-1))⟩, ⟨.complex, .cplx .nan .zero⟩,
  ⟨.bool, .bool true⟩, ⟨.noneType, .none⟩, ⟨.tuple, .seq [2, 0]⟩, ⟨.npInt64, .np (.i 9)⟩, ⟨.str, .str (ps "s")⟩,
  ⟨.dict, .dict [(7, 2), (6, 0), (5, 1), (4, 3), (3, 4), (2, 5), (1, 6), (0, 7), (8, 6), (9, 2)]⟩]

example : ∃ s', GoodDump (fun _ => True) (Ex.args C08.heap 10) Ex.file0 s' := Ex.good_of (by decide +kernel)

/-- **C08 is violated.**  `dump({False: None}, f)` returns, `load(f)` returns `{True: None}`. -/
theorem C08_violated_false :
    ∃ s' s'' L, dumpTop (Ex.args [⟨.bool, .bool false⟩, ⟨.noneType, .none⟩, ⟨.dict, .dict [(0, 1)]⟩] 2) Ex.file0 = (.ok (), s') ∧
      loadTop ⟨Ex.env, [], id, 100⟩ s' = (.ok (L, 3), s'') ∧ L[3]? = some ⟨.dict, .dict [(2, 1)]⟩ ∧ L[2]? = some ⟨.bool, .bool true⟩ := by
  obtain ⟨s', s'', h1, h2⟩ := Ex.of_roundTrip (env := Ex.env) (H := [⟨.bool, .bool false⟩, ⟨.noneType, .none⟩, ⟨.dict, .dict [(0, 1)]⟩]) (obj := 2)
    (L := [⟨.tuple, .seq []⟩, ⟨.noneType, .none⟩, ⟨.bool, .bool true⟩, ⟨.dict, .dict [(2, 1)]⟩]) (b := 3) (by decide +kernel)
  exact ⟨s', s'', _, h1, h2, rfl, rfl⟩

/-- **C08 is violated by every dict with the key `False`.**  The entry is written under the text of the key, and a load that comes to this entry makes
an entry with the key `True` of it: whatever the other entries are, wherever the entry is in the dict and whatever its value is. -/
theorem C08_violated_falses {env : Env} {H : Heap} {k v : Addr} {i : Nat} (hk : H[k]? = some ⟨.bool, .bool false⟩) :
    ∃ sub, dictSub env H i k v = .ok sub ∧ sub.attrs = [("key_idx", .int i), ("key_base_type", .bytes "bool")] ∧
      ∀ content a attrs s r s', Assoc.get? attrs "key_base_type" = some (.bytes "bool") → Assoc.get? attrs "key_idx" = some (.int i) →
        dictAppend env content sub.name a attrs s = (.ok r, s') → ∃ x, r[i]? = some (.pair x a) ∧ s'.heap[x]? = some ⟨.bool, .bool true⟩ := by
  refine ⟨⟨ps "False", .addr v, [("key_idx", .int i), ("key_base_type", .bytes "bool")]⟩, ?_, rfl, ?_⟩
  · simp only [dictSub, hk]; rfl
  · intro content a attrs s r s' h1 h2 h
    have hl : loadKey env "bool" (ps "False") = .ok (some ⟨.bool, .bool true⟩) := rfl
    simp only [dictAppend, h1] at h
    rw [M.bind_of_ok (show (pure "bool" : LM String) s = (.ok "bool", s) from rfl), hl] at h
    rw [M.bind_of_ok (show (M.ofExcept (.ok (some ⟨.bool, .bool true⟩)) : LM (Option Obj)) s = (.ok (some ⟨.bool, .bool true⟩), s) from rfl)] at h
    simp only [] at h
    rw [M.bind_of_ok (show lAlloc ⟨.bool, .bool true⟩ s = (.ok s.heap.length, { s with heap := s.heap ++ [⟨.bool, .bool true⟩] }) from rfl)] at h
    cases hp : dictPlace content (.pair s.heap.length a) attrs with
    | error e => rw [hp] at h; simp [M.ofExcept] at h
    | ok r' =>
      rw [hp] at h
      have h : ((.ok r', { s with heap := s.heap ++ [⟨.bool, .bool true⟩] }) : Except PyErr (List DItem) × LState) = (.ok r, s') := h
      cases h
      refine ⟨s.heap.length, ?_, by simp⟩
      simp only [dictPlace, h2] at hp
      rw [if_pos (Int.natCast_nonneg i)] at hp
      simp only [Int.toNat_natCast] at hp
      generalize padTo .hole content i = l at hp
      cases hg : l[i]? with
      | none => rw [hg] at hp; simp at hp
      | some d =>
        have hlt := (List.getElem?_eq_some_iff.1 hg).1
        rw [hg] at hp
        split at hp <;> first | (cases hp; simp [hlt]) | simp at hp

/-- a dict with the entry `False: None` read into an empty container -/
example : Ex.isOk (dictAppend Ex.env [] (ps "False") 7 [("key_idx", .int 0), ("key_base_type", .bytes "bool")]
    { reg := Ex.file0.reg, heap := [], memo := [], tcache := [] }).1 = true := by decide +kernel

/-- **C08 is violated.**  `dump({numpy.int64(1): 0.5}, f)` returns, in the loaded dict the key is a `numpy.float64`. -/
theorem C08_violated_numpy :
    ∃ s' s'' L b e, dumpTop (Ex.args [⟨.npInt64, .np (.i 1)⟩, ⟨.float, .float (.fin false 1 (-1))⟩, ⟨.dict, .dict [(0, 1)]⟩] 2) Ex.file0 = (.ok (), s') ∧
      loadTop ⟨Ex.env, [], id, 100⟩ s' = (.ok (L, b), s'') ∧ L[b]? = some ⟨.dict, .dict [e]⟩ ∧ L[e.1]? = some ⟨.npFloat64, .np (.f (.fin false 1 0))⟩ := by
  have h : ∃ r, Ex.roundTrip Ex.env [⟨.npInt64, .np (.i 1)⟩, ⟨.float, .float (.fin false 1 (-1))⟩, ⟨.dict, .dict [(0, 1)]⟩] 2 = some r ∧
      r.1[r.2]? = some ⟨.dict, .dict [(1, 2)]⟩ ∧ r.1[1]? = some ⟨.npFloat64, .np (.f (.fin false 1 0))⟩ := by
    refine ⟨(Ex.roundTrip Ex.env [⟨.npInt64, .np (.i 1)⟩, ⟨.float, .float (.fin false 1 (-1))⟩, ⟨.dict, .dict [(0, 1)]⟩] 2).getD ([], 0), ?_, ?_, ?_⟩ <;>
    decide +kernel
  obtain ⟨⟨L, b⟩, h1, h2, h3⟩ := h
  obtain ⟨s', s'', e1, e2⟩ := Ex.of_roundTrip h1
  exact ⟨s', s'', L, b, _, e1, e2, h2, h3⟩

end Verif
