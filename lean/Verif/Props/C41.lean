import Verif.Props.V3Round
/-!
# C41: an object written by version 3 is loaded with the same value

hickle keeps the code of version 3 to read files written by it.  Here both sides are that code: the file is the one
`legacy_v3.dump` writes, the value the one `legacy_v3.load` gives, which `hickle.load` calls for such files (C22).

`V3Spec.lean` has the specification: `Same v w` and the domain `CleanTop`.
-/
namespace Verif.V3

theorem sub_eq_nodeAt {l : Libs} {fuel : Nat} {v : PV} : ∀ {path : List PyStr} {n : Node}, dumpFresh l fuel v path = .ok n →
    ∃ sub, dump l fuel v 0 [] = .ok sub ∧ nodeAt path n = some (.group [("type", "hickle")] sub)
  | [], n, h => by
    rw [dumpFresh] at h
    cases hd : dump l fuel v 0 [] with
    | error e => simp [hd, Except.map] at h
    | ok sub =>
      simp only [hd, Except.map] at h
      injection h with h
      exact ⟨sub, rfl, by rw [← h, nodeAt]⟩
  | c :: cs, n, h => by
    rw [dumpFresh] at h
    cases hd : dumpFresh l fuel v cs with
    | error e => simp [hd, Except.map] at h
    | ok m =>
      simp only [hd, Except.map] at h
      injection h with h
      obtain ⟨sub, h1, h2⟩ := sub_eq_nodeAt hd
      refine ⟨sub, h1, ?_⟩
      rw [← h, nodeAt]
      simp [Assoc.get?, h2]

theorem get?_map_self {ms : Members} {c : PyStr} {n n' : Node} (h : Assoc.get? ms c = some n) :
    Assoc.get? (ms.map fun e => if e.1 = c then (c, n') else e) c = some n' := by
  induction ms with
  | nil => simp at h
  | cons e ms ih =>
    rw [List.map_cons]
    by_cases he : e.1 = c
    · simp [Assoc.get?, he]
    · rw [if_neg he, Assoc.get?, if_neg he]
      rw [Assoc.get?, if_neg he] at h
      exact ih h

theorem get?_map_ne {ms : Members} {c d : PyStr} {n' : Node} (h : d ≠ c) :
    Assoc.get? (ms.map fun e => if e.1 = c then (c, n') else e) d = Assoc.get? ms d := by
  induction ms with
  | nil => rfl
  | cons e ms ih =>
    rw [List.map_cons]
    by_cases he : e.1 = c
    · rw [if_pos he, Assoc.get?, if_neg (fun h' => h h'.symm), Assoc.get?, if_neg (fun h' => h (h'.symm.trans he)), ih]
    · rw [if_neg he]
      simp only [Assoc.get?, ih]

theorem get?_append_left {ms : Members} {c : PyStr} {n : Node} {e : PyStr × Node} (h : Assoc.get? ms c = some n) : Assoc.get? (ms ++ [e]) c = some n := by
  induction ms with
  | nil => simp at h
  | cons x ms ih =>
    rw [List.cons_append]
    simp only [Assoc.get?] at h ⊢
    split
    · next he => rw [if_pos he] at h; exact h
    · next he => rw [if_neg he] at h; exact ih h

theorem get?_append_new {ms : Members} {c : PyStr} {n : Node} (h : Assoc.get? ms c = none) : Assoc.get? (ms ++ [(c, n)]) c = some n := by
  induction ms with
  | nil => simp [Assoc.get?]
  | cons x ms ih =>
    rw [List.cons_append]
    simp only [Assoc.get?] at h ⊢
    split
    · next he => rw [if_pos he] at h; simp at h
    · next he => rw [if_neg he] at h; exact ih h

theorem get?_append_other {ms : Members} {c d : PyStr} {n : Node} (h : d ≠ c) : Assoc.get? (ms ++ [(c, n)]) d = Assoc.get? ms d := by
  induction ms with
  | nil => simp [Assoc.get?, Ne.symm h]
  | cons x ms ih =>
    rw [List.cons_append]
    simp only [Assoc.get?, ih]

/-- what is at the path after writing an object there, where nothing was before -/
theorem dumpAt_new {l : Libs} {fuel : Nat} {v : PV} : ∀ {path : List PyStr} {root file : Node}, nodeAt path root = none → dumpAt l fuel v path root = .ok file →
    ∃ sub, dump l fuel v 0 [] = .ok sub ∧ nodeAt path file = some (.group [("type", "hickle")] sub)
  | [], root, file, hn, _ => by simp [nodeAt] at hn
  | c :: cs, .dset d at', file, _, h => by simp [dumpAt] at h
  | c :: cs, .group at' ms, file, hn, h => by
    rw [dumpAt] at h
    rw [nodeAt] at hn
    cases hg : Assoc.get? ms c with
    | none =>
      simp only [hg] at h
      cases hd : dumpFresh l fuel v cs with
      | error e => simp [hd, Except.map] at h
      | ok m =>
        simp only [hd, Except.map] at h
        injection h with h
        obtain ⟨sub, h1, h2⟩ := sub_eq_nodeAt hd
        refine ⟨sub, h1, ?_⟩
        rw [← h, nodeAt, get?_append_new hg]
        exact h2
    | some n =>
      simp only [hg] at h hn
      cases hd : dumpAt l fuel v cs n with
      | error e => simp [hd, Except.map] at h
      | ok m =>
        simp only [hd, Except.map] at h
        injection h with h
        obtain ⟨sub, h1, h2⟩ := dumpAt_new hn hd
        refine ⟨sub, h1, ?_⟩
        rw [← h, nodeAt, get?_map_self hg]
        exact h2

/-- the attributes of the root after writing (hickle.py:281-287) -/
structure Marked (file : Node) : Prop where
  marked : ∃ at' ms, file = .group at' ms ∧ Assoc.get? at' "CLASS" = some "hickle" ∧ Assoc.get? at' "VERSION" = some "3.4.8" ∧ Assoc.get? at' "type" = some "hickle" ∧ Assoc.get? at' "PYTHON_VERSION" = some "3.8.0"

theorem dumpAt_root {l : Libs} {fuel : Nat} {v : PV} {path : List PyStr} {at' : List (String × String)} {ms : Members} {file : Node}
    (h : dumpAt l fuel v path (.group at' ms) = .ok file) : ∃ ms', file = .group at' ms' := by
  cases path with
  | nil =>
    rw [dumpAt] at h
    cases hd : dump l fuel v 0 ms with
    | error e => simp [hd, Except.map] at h
    | ok sub => simp only [hd, Except.map] at h; injection h with h; exact ⟨_, h.symm⟩
  | cons c cs =>
    rw [dumpAt] at h
    cases hg : Assoc.get? ms c with
    | none =>
      simp only [hg] at h
      cases hd : dumpFresh l fuel v cs with
      | error e => simp [hd, Except.map] at h
      | ok m => simp only [hd, Except.map] at h; injection h with h; exact ⟨_, h.symm⟩
    | some n =>
      simp only [hg] at h
      cases hd : dumpAt l fuel v cs n with
      | error e => simp [hd, Except.map] at h
      | ok m => simp only [hd, Except.map] at h; injection h with h; exact ⟨_, h.symm⟩

theorem dumpFile_marked {l : Libs} {fuel : Nat} {v : PV} {path : List PyStr} {root file : Node} (h : dumpFile l fuel path v root = .ok file) : Marked file := by
  cases root with
  | dset d at' => simp [dumpFile] at h
  | group at' ms =>
    rw [dumpFile] at h
    obtain ⟨ms', rfl⟩ := dumpAt_root h
    exact ⟨_, _, rfl, by simp [Assoc.get?, Assoc.put, mark], by simp [Assoc.get?, Assoc.put, mark], by simp [Assoc.get?, Assoc.put, mark], by simp [Assoc.get?, Assoc.put, mark]⟩

/-- reading what is at the path -/
theorem loadFile_at {l : Libs} {f : Nat} {path : List PyStr} {file n : Node} (hm : Marked file) (hn : nodeAt path file = some n) :
    loadFile l f path file = (load l f [] (path.getLast?.getD []) n).bind firstOf := by
  obtain ⟨at', ms, rfl, h1, h2, _⟩ := hm
  have hv : verMajor "3.4.8" = some 3 := by decide +kernel
  simp only [loadFile, h1, h2, hv, hn]
  simp only [show ¬ ((3 : Int) = 1 ∨ (3 : Int) = 2) by decide, show (3 : Int) ≥ 3 by decide, if_false, if_true]
  rfl

theorem load_slot {l : Libs} {v : PV} {sub : Members} (hs : Slot l v sub) {at' : List (String × String)} (hat : Assoc.get? at' "type" = some "hickle") :
    ∃ w, Same v w ∧ ∃ f0, ∀ f, f0 ≤ f → ∀ name, (load l f [] name (.group at' sub)).bind firstOf = .ok w := by
  obtain ⟨w, hw, tail, f0, hf⟩ := hs
  refine ⟨w, hw, f0 + 1, fun f hle name => ?_⟩
  obtain ⟨f, rfl⟩ : ∃ g, f = g + 1 := ⟨f - 1, by omega⟩
  obtain ⟨keys, h1, h2⟩ := hf f (by omega) "hickle" (by decide)
  rw [load_group (kt := none) hat (by simp [keyTypeOf]) h1 h2]
  simp [convert, seqKind, spKind, firstOf, Except.bind]

/-- **C41.**  An object in the domain that version 3 writes at a path where nothing is yet, or into a new file, is loaded from there
with the same value, whatever order h5py lists the members of groups in, given enough stack.
Missing from the full property: the objects outside `CleanTop`, for which it does not hold (see below). -/
theorem C41_partial {l : Libs} (hx : TextOk l.env) (hl : Lists l) {v : PV} (hc : CleanTop l v) {fuel : Nat} {path : List PyStr} {root file : Node}
    (hnew : nodeAt path root = none ∨ path = [] ∧ ∃ at', root = .group at' []) (h : dumpFile l fuel path v root = .ok file) :
    ∃ w, Same v w ∧ ∃ f0, ∀ f, f0 ≤ f → loadFile l f path file = .ok w := by
  have hm := dumpFile_marked h
  cases root with
  | dset d at' => simp [dumpFile] at h
  | group at' ms =>
    rw [dumpFile] at h
    rcases hnew with hnew | ⟨rfl, at2, he⟩
    · have hn : nodeAt path (.group (mark at') ms) = none := by
        cases path with
        | nil => simp [nodeAt] at hnew
        | cons c cs => rw [nodeAt] at hnew ⊢; exact hnew
      obtain ⟨sub, h1, h2⟩ := dumpAt_new hn h
      obtain ⟨w, hw, f0, hf⟩ := load_slot (dump_slot hx hl hc h1) (at' := [("type", "hickle")]) (by simp [Assoc.get?])
      exact ⟨w, hw, f0, fun f hle => by rw [loadFile_at hm h2]; exact hf f hle _⟩
    · injection he with _ he
      subst he
      rw [dumpAt] at h
      cases hd : dump l fuel v 0 [] with
      | error e => simp [hd, Except.map] at h
      | ok sub =>
        simp only [hd, Except.map] at h
        injection h with h
        subst h
        obtain ⟨w, hw, f0, hf⟩ := load_slot (dump_slot hx hl hc hd)
          (at' := mark at') (by simp [Assoc.get?, Assoc.put, mark])
        exact ⟨w, hw, f0, fun f hle => by rw [loadFile_at hm (n := .group _ sub) rfl]; exact hf f hle _⟩

/-- neither path leads through the other -/
def Apart (p q : List PyStr) : Prop := ¬ p <+: q ∧ ¬ q <+: p

theorem dumpAt_other {l : Libs} {fuel : Nat} {v : PV} : ∀ {path q : List PyStr} {root file : Node}, Apart path q → dumpAt l fuel v path root = .ok file →
    ∀ n, nodeAt q root = some n → nodeAt q file = some n
  | [], q, _, _, ha, _, _, _ => absurd (List.nil_prefix ..) ha.1
  | _ :: _, [], _, _, ha, _, _, _ => absurd (List.nil_prefix ..) ha.2
  | c :: cs, q :: qs, .dset d at', file, _, h, _, _ => by simp [dumpAt] at h
  | c :: cs, q :: qs, .group at' ms, file, ha, h, n, hq => by
    rw [dumpAt] at h
    rw [nodeAt] at hq
    cases hg : Assoc.get? ms c with
    | none =>
      simp only [hg] at h
      cases hd : dumpFresh l fuel v cs with
      | error e => simp [hd, Except.map] at h
      | ok m =>
        simp only [hd, Except.map] at h
        injection h with h
        have hne : q ≠ c := by rintro rfl; simp [hg] at hq
        rw [← h, nodeAt, get?_append_other hne]
        exact hq
    | some x =>
      simp only [hg] at h
      cases hd : dumpAt l fuel v cs x with
      | error e => simp [hd, Except.map] at h
      | ok m =>
        simp only [hd, Except.map] at h
        injection h with h
        rw [← h, nodeAt]
        by_cases hne : q = c
        · subst hne
          rw [hg] at hq
          rw [get?_map_self hg]
          refine dumpAt_other ⟨fun hp => ha.1 ?_, fun hp => ha.2 ?_⟩ hd n hq
          · exact List.cons_prefix_cons.2 ⟨rfl, hp⟩
          · exact List.cons_prefix_cons.2 ⟨rfl, hp⟩
        · rw [get?_map_ne hne]
          exact hq

/-- **C41, other objects.**  What was stored at other paths is loaded as before. -/
theorem C41_others {l : Libs} {v : PV} {fuel f : Nat} {path q : List PyStr} {root file : Node} (hr : Marked root) (ha : Apart path q)
    (h : dumpFile l fuel path v root = .ok file) {n : Node} (hq : nodeAt q root = some n) : loadFile l f q file = loadFile l f q root := by
  have hm := dumpFile_marked h
  cases root with
  | dset d at' => simp [dumpFile] at h
  | group at' ms =>
    rw [dumpFile] at h
    have hn : nodeAt q (.group (mark at') ms) = some n := by
      cases q with
      | nil => exact absurd (List.nil_prefix ..) ha.2
      | cons c cs => rw [nodeAt] at hq ⊢; exact hq
    rw [loadFile_at hm (dumpAt_other ha h n hn), loadFile_at hr hq]

/-! ### an example -/

theorem textLe_total : ∀ a b : PyStr, textLe a b = true ∨ textLe b a = true
  | [], _ => .inl rfl
  | _ :: _, [] => .inr rfl
  | a :: as, b :: bs => by
    simp only [textLe]
    by_cases h : a = b
    · subst h; simpa using textLe_total as bs
    · simp only [h, Ne.symm h, if_false, decide_eq_true_eq]; omega

theorem textLe_trans : ∀ a b c : PyStr, textLe a b = true → textLe b c = true → textLe a c = true
  | [], _, _, _, _ => rfl
  | _ :: _, [], _, h, _ => by simp [textLe] at h
  | _ :: _, _ :: _, [], _, h => by simp [textLe] at h
  | a :: as, b :: bs, c :: cs, h1, h2 => by
    simp only [textLe] at h1 h2 ⊢
    by_cases hab : a = b
    · subst hab
      by_cases hac : a = c
      · subst hac
        simp only [if_true] at h1 h2 ⊢
        exact textLe_trans as bs cs h1 h2
      · simp only [hac, if_false] at h2 ⊢; exact h2
    · simp only [hab, if_false, decide_eq_true_eq] at h1
      by_cases hbc : b = c
      · subst hbc
        simp only [hab, if_false, decide_eq_true_eq]; exact h1
      · simp only [hbc, if_false, decide_eq_true_eq] at h2
        rw [if_neg (by omega)]
        simp only [decide_eq_true_eq]; omega

/-- h5py 2, listing members by name -/
def Ex.old : Libs := { env := Verif.Ex.env, printable := fun _ => true, newW := false, newR := false, order := fun ms => sortBy textLe (ms.map Prod.fst) }
/-- h5py 3 -/
def Ex.new : Libs := { Ex.old with newW := true, newR := true }

theorem Ex.old_lists : Lists Ex.old := fun _ => sortBy_perm ..
theorem Ex.old_byName : ByName Ex.old := fun ms => sortBy_sorted (fun a b h => (textLe_total a b).resolve_left (by simp [h])) textLe_trans (ms.map Prod.fst)

/-- `{'a': [1, 'x', {2, 3}], (1, 'b'): {True: b'y', -5: None}, 7: masked_array, 1.5: csr_matrix}` -/
def Ex.object : PV := .dict [
  (.str (ps "a"), .seq .list [.int 1, .str (ps "x"), .seq .set [.int 2, .int 3]]),
  (.seq .tuple [.int 1, .str (ps "b")], .dict [(.bool true, .bytes [121]), (.int (-5), .none)]),
  (.int 7, .masked ⟨.int64, [2], [.i 1, .i 2]⟩ [true, false]),
  (.float (.fin false 3 (-1)), .sparse .csr ⟨.int64, [1], [.i 4]⟩ ⟨.int64, [1], [.i 0]⟩ ⟨.int64, [2], [.i 0, .i 1]⟩ [1, 1])]

/-- it is written -/
example : Ex.isOk (dumpFile Ex.old 9 [] Ex.object (.group [] [])) = true := by decide +kernel

/-- and it is in the domain -/
theorem Ex.object_clean : CleanTop Ex.old Ex.object := by
  have plain : ∀ s, s = ps "a" ∨ s = ps "b" → PlainStr Ex.old s := by
    rintro s (rfl | rfl) <;> exact ⟨by decide, by decide, by decide⟩
  have dif : ∀ ks : List PV, (∀ k ∈ ks, k.view.isSome = true) → (ks.Pairwise fun a b => a.same Ex.old.env.opaqueEq b = false ∧ b.same Ex.old.env.opaqueEq a = false) →
    Differ Ex.old.env.opaqueEq ks := fun ks h1 h2 => ⟨h1, h2⟩
  refine ⟨fun _ => .dict _ ?_ (dif _ (by decide +kernel) (by decide +kernel)) ?_ (fun _ => Ex.old_byName), fun _ => Ex.old_byName⟩
  · intro e he
    simp only [List.mem_cons, List.not_mem_nil, or_false] at he
    rcases he with rfl | rfl | rfl | rfl
    · exact .str _ (plain _ (.inl rfl))
    · refine .tuple _ fun x hx => ?_
      simp only [List.mem_cons, List.not_mem_nil, or_false] at hx
      rcases hx with rfl | rfl
      · exact .int _
      · exact .str _ (plain _ (.inr rfl))
    · exact .int _
    · exact .float _
  · intro e he hm
    simp only [List.mem_cons, List.not_mem_nil, or_false] at he
    rcases he with rfl | rfl | rfl | rfl
    · refine .group _ _ (by decide +kernel) (.inl rfl) (fun x hx => ?_) (by simp)
      simp only [List.mem_cons, List.not_mem_nil, or_false] at hx
      rcases hx with rfl | rfl | rfl
      · exact .int _
      · exact .str _ rfl
      · refine .data _ _ (by decide +kernel) (fun _ x hx => ?_) (fun _ => ⟨by decide +kernel, by decide +kernel⟩)
        simp only [List.mem_cons, List.not_mem_nil, or_false] at hx
        rcases hx with rfl | rfl <;> exact .int _ (by decide)
    · refine .dict _ (fun e he => ?_) (dif _ (by decide +kernel) (by decide +kernel)) (fun e he _ => ?_) (fun _ => Ex.old_byName)
      · simp only [List.mem_cons, List.not_mem_nil, or_false] at he
        rcases he with rfl | rfl
        · exact .true
        · exact .int _
      · simp only [List.mem_cons, List.not_mem_nil, or_false] at he
        rcases he with rfl | rfl
        · exact .bytes _ (by decide)
        · exact .none
    · simp [PV.isMasked] at hm
    · exact .sparse _ _ _ _ _ Ex.old_byName

/-! ### where the property does not hold -/

/-- write into a new file and read again -/
def Ex.back (l : Libs) (v : PV) : Except PyErr PV := (dumpFile l 9 [] v (.group [] [])).bind (loadFile l 9 [])

/-- does it give such a value -/
def Ex.gives (r : Except PyErr PV) (p : PV → Bool) : Bool :=
  match r with
  | .ok v => p v
  | .error _ => false

/-- the string of a value -/
def Ex.str? : PV → Option PyStr
  | .str s => some s
  | _ => none

/-- **C41 is violated** by strings when the file is read with h5py 3: `'a'` comes back as `"b'a'"`. -/
theorem C41_violated_str : Ex.gives (Ex.back Ex.new (.str (ps "a"))) (fun v => Ex.str? v = some (ps "b'a'")) = true := by decide +kernel

/-- **C41 is violated** by byte strings that end with NUL: `b'a\0'` comes back as `b'a'`. -/
theorem C41_violated_nul : Ex.gives (Ex.back Ex.old (.bytes [97, 0])) (fun | .bytes b => b = [97] | _ => false) = true := by decide +kernel

/-- **C41 is violated** by a list of byte strings that are not UTF-8: `[b'\xff']` is written and can not be read. -/
theorem C41_violated_bytes : Ex.isOk (dumpFile Ex.old 9 [] (.seq .list [.bytes [255]]) (.group [] [])) = true ∧
    Ex.raised (Ex.back Ex.old (.seq .list [.bytes [255]])) = some .valueError := by decide +kernel

/-- **C41 is violated** by a list of integers some of which need `uint64`: `[1, 2**63 + 1]` comes back as `[1.0, 2.0**63]`. -/
theorem C41_violated_uint : Ex.gives (Ex.back Ex.old (.seq .list [.int 1, .int (2 ^ 63 + 1)]))
    (fun | .seq .list [_, .np (.f x)] => castNum .float64 (.i (2 ^ 63)) = some (.f x) | _ => false) = true := by decide +kernel

/-- **C41 is violated** by the key `False`: it comes back as `True`. -/
theorem C41_violated_false : Ex.gives (Ex.back Ex.old (.dict [(.bool false, .int 5)])) (fun | .dict [(.bool true, .int 5)] => true | _ => false) = true := by decide +kernel

/-- ... so that of the two entries of `{False: 5, True: 6}` one is lost; the value is that of the later one. -/
theorem C41_violated_lost : Ex.gives (Ex.back Ex.old (.dict [(.bool false, .int 5), (.bool true, .int 6)])) (fun | .dict [(.bool true, .int 6)] => true | _ => false) = true := by decide +kernel

/-- **C41 is violated** by the key `None`: it comes back as `'None'`. -/
theorem C41_violated_none : Ex.gives (Ex.back Ex.old (.dict [(.none, .int 5)])) (fun | .dict [(.str s, .int 5)] => s = ps "None" | _ => false) = true := by decide +kernel

/-- **C41 is violated** by keys that are byte strings: `b'a'` comes back as `"b'a'"`. -/
theorem C41_violated_byteskey : Ex.gives (Ex.back Ex.old (.dict [(.bytes [97], .int 5)])) (fun | .dict [(.str s, .int 5)] => s = ps "b'a'" | _ => false) = true := by decide +kernel

/-- **C41 is violated** by keys with a slash: `{'a/b': 5}` is written and can not be read. -/
theorem C41_violated_slash : Ex.isOk (dumpFile Ex.old 9 [] (.dict [(.str (ps "a/b"), .int 5)]) (.group [] [])) = true ∧
    Ex.raised (Ex.back Ex.old (.dict [(.str (ps "a/b"), .int 5)])) = some .keyError := by decide +kernel

/-- **C41 is violated** by keys that are not ASCII: `{'ä': 5}` is written and can not be read. -/
theorem C41_violated_ascii : Ex.isOk (dumpFile Ex.old 9 [] (.dict [(.str [0xe4], .int 5)]) (.group [] [])) = true ∧
    Ex.raised (Ex.back Ex.old (.dict [(.str [0xe4], .int 5)])) = some .unicodeEncodeError := by decide +kernel

/-- **C41 is violated** by keys that are tuples with `inf`: `{(inf,): 5}` is written and can not be read. -/
theorem C41_violated_inf : Ex.isOk (dumpFile Ex.old 9 [] (.dict [(.seq .tuple [.float (.inf false)], .int 5)]) (.group [] [])) = true ∧
    Ex.raised (Ex.back Ex.old (.dict [(.seq .tuple [.float (.inf false)], .int 5)])) = some .valueError := by decide +kernel

/-- **C41 is violated** by a `frozenset` of different types: it comes back as an internal container. -/
theorem C41_violated_frozenset : Ex.gives (Ex.back Ex.old (.seq (.other "frozenset") [.int 1, .bytes [97]])) (fun | .cont .. => true | _ => false) = true := by decide +kernel

/-- **C41 is violated** by a list with a masked array: it comes back with one more item. -/
theorem C41_violated_masked : Ex.gives (Ex.back Ex.old (.seq .list [.masked ⟨.int64, [1], [.i 1]⟩ [true], .int 5]))
    (fun | .seq .list [.masked .., .none, .int 5] => true | _ => false) = true := by decide +kernel

/-- **C41 is violated** by an object at the root of a file with an object at `/a`: `load` gives the container made of that one. -/
theorem C41_violated_root : Ex.gives ((dumpFile Ex.old 9 [] (.int 1) (.group [] [])).bind fun file => (dumpFile Ex.old 9 [ps "a"] (.int 2) file).bind (loadFile Ex.old 9 []))
    (fun | .cont n _ [.int 2] => n = ps "a" | _ => false) = true := by decide +kernel

end Verif.V3
