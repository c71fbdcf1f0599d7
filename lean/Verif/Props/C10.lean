import Verif.Py.Round
import Verif.Props.Values
/-!
# C10 Numbers inside lists, tuples and sets keep their value

True of the code only if every int that is stored next to a float or complex number is exactly representable as
a float.  `C10_exact` says what every number in a list or tuple becomes, `C10_kept` when that is the same value.  For
sets it is part of `GoodDump` that the ints are representable.  `C10_violated_list` and `C10_violated_set` are the
counterexamples to the full property.
-/
namespace Verif

variable {P : Nat → Prop}

/-- all of them are numbers, and one is a float or a complex number -/
def WithFloat (H : Heap) (as : List Addr) : Prop :=
  (∀ e ∈ as, ∃ o v, H[e]? = some o ∧ exactNum o = some v) ∧
  ∃ e ∈ as, ∃ o v, H[e]? = some o ∧ exactNum o = some v ∧ (v.dt = .float64 ∨ v.dt = .complex128)

/-- `float(x)` of an int (`F64.ofInt_nearest`: the nearest float); other numbers are left as they are -/
def AsFloat : NpVal → XR × XR → Prop
  | .i x, w => ∃ z, F64.ofInt x = some z ∧ w = (z.val, .q 0)
  | v, w => w = v.val

theorem castNum_float {d : DT} {v w : NpVal} (h : castNum d v = some w) (hd : d = .float64 ∨ d = .complex128) : AsFloat v w.val := by
  have hz : F64.zero.val = .q 0 := by decide
  by_cases hi : ∃ x, v = .i x
  · obtain ⟨x, rfl⟩ := hi
    rcases hd with rfl | rfl <;> simp only [castNum, Option.map_eq_some_iff] at h
    · obtain ⟨z, h1, rfl⟩ := h
      exact ⟨z, h1, rfl⟩
    · obtain ⟨z, h1, rfl⟩ := h
      exact ⟨z, h1, by simp [NpVal.val, hz]⟩
  · have := (castNum_exact h (fun x hx => absurd ⟨x, hx⟩ hi)).1
    cases v with
    | i x => exact absurd ⟨x, rfl⟩ hi
    | b x => exact this
    | f x => exact this
    | c x y => exact this

theorem castNum_int {d : DT} {v w : NpVal} (h : castNum d v = some w) (hd : ¬(d = .float64 ∨ d = .complex128)) : w.val = v.val := by
  refine (castNum_exact h fun x hx hne => ?_).1
  subst hx
  cases d
  · simp [castNum] at h
  · exact absurd rfl hne
  · exact absurd (.inl rfl) hd
  · exact absurd (.inr rfl) hd

/-- **C10 for lists and tuples, exactly.**  The number at index `i` of a list or tuple loads as a number at index
`i`.  If there is nothing but numbers in the list and one of them is a float or complex number, an int `x` becomes
`float(x)`.  Otherwise, and for all other numbers, the value is the same. -/
theorem C10_exact {a : DumpArgs} {s s' : Session} (h : GoodDump P a s s') {π : List Step} {c : Addr} {cl : Cls} {as : List Addr}
    (hf : follow a.heap a.obj π = some c) (hc : a.heap[c]? = some ⟨cl, .seq as⟩) :
    Loads P a.env s'.store a.path fun L b => ∃ (x : Addr) (xs : List Addr), follow L b π = some x ∧ L[x]? = some ⟨cl, .seq xs⟩ ∧
      xs.length = as.length ∧ ∀ (i e : Nat) (o : Obj) (v : NpVal), as[i]? = some e → a.heap[e]? = some o → exactNum o = some v →
        ∃ (y : Addr) (o' : Obj) (v' : NpVal), xs[i]? = some y ∧ L[y]? = some o' ∧ exactNum o' = some v' ∧
          (WithFloat a.heap as → AsFloat v v'.val) ∧ (¬WithFloat a.heap as → v'.val = v.val) := by
  refine h.loads.imp fun L b hl => ?_
  obtain ⟨x, xs, h1, h2, h3, h4⟩ := hl.1.seq hf hc
  refine ⟨x, xs, h1, h2, h3, fun i e o v hi ho hv => ?_⟩
  obtain ⟨y, o', g1, g2, g3⟩ := h4 i e o v hi ho hv
  rcases g3 with ⟨rfl, c', hc', hn⟩ | ⟨d, ⟨c', hc', hd⟩, hall, w, w', e1, rfl, e3, e4⟩
  · refine ⟨y, o', v, g1, g2, hv, fun hw => ?_, fun _ => rfl⟩
    obtain ⟨q, u, hq, hu⟩ := hw.1 c' hc'
    simp [numDt, hq, hu] at hn
  · rw [hv] at e1; simp at e1; subst e1
    refine ⟨y, _, w', g1, g2, exactNum_np w', fun hw => ?_, fun hw => ?_⟩
    · obtain ⟨c2, hc2, q, u, hq, hu, hfl⟩ := hw.2
      obtain ⟨r, f1, f2⟩ := hall c2 hc2
      simp [numDt, hq, hu] at f1; subst f1
      refine castNum_float e3 ?_
      cases d <;> rcases hfl with hfl | hfl <;> rw [hfl] at f2 <;> simp [DT.rank] at f2 ⊢
    · refine castNum_int e3 fun hfl => hw ⟨fun c2 hc2 => ?_, c', hc', ?_⟩
      · obtain ⟨r, f1, _⟩ := hall c2 hc2
        obtain ⟨q, u, hq, hu⟩ := numDt_ne (by rw [f1]; simp : numDt a.heap c2 ≠ none)
        exact ⟨q, u, hq, hu⟩
      · obtain ⟨q, u, hq, hu⟩ := numDt_ne (by rw [hd]; simp : numDt a.heap c' ≠ none)
        simp [numDt, hq, hu] at hd
        exact ⟨q, u, hq, hu, by rw [hd]; exact hfl⟩

theorem AsFloat.kept {v : NpVal} {w : XR × XR} (h : AsFloat v w) : w = v.val ↔ ∀ x, v = .i x → F64.Fits x := by
  cases v with
  | i x =>
    obtain ⟨z, h1, rfl⟩ := h
    constructor
    · intro e x' hx y hy
      obtain rfl : x = x' := by injection hx
      rw [h1] at hy
      have := Option.some.inj hy
      subst this
      exact (Prod.mk.inj e).1
    · intro hx
      rw [hx x rfl z h1]; rfl
  | b x => exact ⟨fun _ x hx => (by simp at hx), fun _ => h⟩
  | f x => exact ⟨fun _ x hx => (by simp at hx), fun _ => h⟩
  | c x y => exact ⟨fun _ x hx => (by simp at hx), fun _ => h⟩

/-- **C10 for lists and tuples**: when the value of a number is kept.  It is, unless the number is an int that is
not representable as a float, nothing but numbers are in the list, and one of them is a float or complex number. -/
theorem C10_kept {a : DumpArgs} {s s' : Session} (h : GoodDump P a s s') {π : List Step} {c : Addr} {cl : Cls} {as : List Addr}
    (hf : follow a.heap a.obj π = some c) (hc : a.heap[c]? = some ⟨cl, .seq as⟩) :
    Loads P a.env s'.store a.path fun L b => ∃ (x : Addr) (xs : List Addr), follow L b π = some x ∧ L[x]? = some ⟨cl, .seq xs⟩ ∧
      ∀ (i e : Nat) (o : Obj) (v : NpVal), as[i]? = some e → a.heap[e]? = some o → exactNum o = some v →
        ∃ (y : Addr) (o' : Obj) (v' : NpVal), xs[i]? = some y ∧ L[y]? = some o' ∧ exactNum o' = some v' ∧
          (v'.val = v.val ↔ (WithFloat a.heap as → ∀ x, v = .i x → F64.Fits x)) := by
  refine (C10_exact h hf hc).imp fun L b ⟨x, xs, h1, h2, _, h3⟩ => ⟨x, xs, h1, h2, fun i e o v hi ho hv => ?_⟩
  obtain ⟨y, o', v', g1, g2, g3, g4, g5⟩ := h3 i e o v hi ho hv
  refine ⟨y, o', v', g1, g2, g3, ?_⟩
  by_cases hw : WithFloat a.heap as
  · rw [(g4 hw).kept]
    exact ⟨fun h _ => h, fun h => h hw⟩
  · exact ⟨fun _ h => absurd h hw, fun _ => g5 hw⟩

/-- **C10, partial.**  Every number, wherever it is, loads as a number of the same mathematical value, or it is an
int `x` and loads as `float(x)`.  Missing: that ints keep their value. -/
theorem C10_partial {a : DumpArgs} {s s' : Session} (h : GoodDump P a s s') {π : List Step} {c : Addr} {o : Obj} {v : NpVal}
    (hf : follow a.heap a.obj π = some c) (hc : a.heap[c]? = some o) (hv : exactNum o = some v) :
    Loads P a.env s'.store a.path fun L b => ∃ (x : Addr) (o' : Obj) (v' : NpVal), follow L b π = some x ∧ L[x]? = some o' ∧
      exactNum o' = some v' ∧ (v'.val = v.val ∨ AsFloat v v'.val) := by
  refine h.loads.imp fun L b hl => ?_
  obtain ⟨x, o', h1, h2, h3⟩ := hl.1.number hf hc hv
  rcases h3 with rfl | ⟨d, w, w', e1, rfl, e3, e4⟩
  · exact ⟨x, o', v, h1, h2, hv, .inl rfl⟩
  · rw [hv] at e1; simp at e1; subst e1
    refine ⟨x, _, w', h1, h2, exactNum_np w', ?_⟩
    by_cases hd : d = .float64 ∨ d = .complex128
    · exact .inr (castNum_float e3 hd)
    · exact .inl (castNum_int e3 hd)

/-- **C10, partial.**  A set keeps all its elements, and every number in it keeps its value.  Missing: sets of
numbers with floats and ints that are not representable as a float (excluded by `GoodDump`). -/
theorem C10_sets_partial {a : DumpArgs} {s s' : Session} (h : GoodDump P a s s') {π : List Step} {c : Addr} {cl : Cls} {as : List Addr}
    (hf : follow a.heap a.obj π = some c) (hc : a.heap[c]? = some ⟨cl, .set as⟩) :
    Loads P a.env s'.store a.path fun L b => ∃ (x : Addr) (xs : List Addr), follow L b π = some x ∧ L[x]? = some ⟨cl, .set xs⟩ ∧
      xs.length = as.length ∧ ∀ e ∈ as, ∀ o v, a.heap[e]? = some o → exactNum o = some v →
        ∃ y ∈ xs, ∃ o' v', L[y]? = some o' ∧ exactNum o' = some v' ∧ v'.val = v.val := by
  refine h.loads.imp fun L b hl => ?_
  obtain ⟨x, xs, h1, h2, h3, _, h4⟩ := hl.1.set hf hc
  refine ⟨x, xs, h1, h2, h3, fun e he o v ho hv => ?_⟩
  obtain ⟨y, hy, o', g1, g2⟩ := h4 e he o v ho hv
  rcases g2 with rfl | ⟨d, hd, hall, w, w', e1, rfl, e3, e4⟩
  · exact ⟨y, hy, o', v, g1, hv, rfl⟩
  · rw [hv] at e1; simp at e1; subst e1
    exact ⟨y, hy, _, w', g1, exactNum_np w', e4 ((h.graph.nums c _ as hc rfl).1.fits hall hd he o v ho hv)⟩

/-- `[2**53 + 1, 0.5]` and `[2**53 + 1, "a"]`, and the set `{(2**53 + 1, 7), 0.5}` -/
def C10.big : Heap := [
  ⟨.int, .int (2 ^ 53 + 1)⟩, ⟨.float, .float (.fin false 1 (-1))⟩, ⟨.list, .seq [0, 1]⟩, ⟨.str, .str [97]⟩, ⟨.list, .seq [0, 3]⟩,
  ⟨.int, .int 7⟩, ⟨.tuple, .seq [0, 5]⟩, ⟨.set, .set [6, 1]⟩, ⟨.list, .seq [2, 4, 7]⟩]

theorem C10.good_big : ∃ s', GoodDump (fun _ => True) (Ex.args C10.big 8) Ex.file0 s' := Ex.good_of (by decide +kernel)

/-- the number `2**53 + 1` is rounded in the first list and not in the second -/
example : ∃ s' : Session, Loads (fun _ => True) Ex.env s'.store (Ex.args C10.big 8).path (fun L b => ∃ (x : Addr) (xs : List Addr), follow L b [.item 0] = some x ∧
      L[x]? = some ⟨.list, .seq xs⟩ ∧ ∃ (y : Addr) (o' : Obj) (v' : NpVal), xs[0]? = some y ∧ L[y]? = some o' ∧ exactNum o' = some v' ∧ v'.val = (.q (2 ^ 53), .q 0)) ∧
    Loads (fun _ => True) Ex.env s'.store (Ex.args C10.big 8).path (fun L b => ∃ (x : Addr) (xs : List Addr), follow L b [.item 1] = some x ∧
      L[x]? = some ⟨.list, .seq xs⟩ ∧ ∃ (y : Addr) (o' : Obj) (v' : NpVal), xs[0]? = some y ∧ L[y]? = some o' ∧ exactNum o' = some v' ∧ v'.val = (.q (2 ^ 53 + 1), .q 0)) := by
  obtain ⟨s', h⟩ := C10.good_big
  refine ⟨s', (C10_exact h (π := [.item 0]) (c := 2) (cl := .list) (as := [0, 1]) rfl rfl).imp ?_, (C10_exact h (π := [.item 1]) (c := 4) (cl := .list) (as := [0, 3]) rfl rfl).imp ?_⟩
  · rintro L b ⟨x, xs, h1, h2, _, h3⟩
    obtain ⟨y, o', v', g1, g2, g3, g4, _⟩ := h3 0 0 _ (.i (2 ^ 53 + 1)) rfl rfl rfl
    obtain ⟨z, hz, hv⟩ := g4 ⟨by
      intro e he
      simp only [List.mem_cons, List.not_mem_nil, or_false] at he
      rcases he with rfl | rfl
      · exact ⟨_, _, rfl, rfl⟩
      · exact ⟨_, _, rfl, rfl⟩, 1, by simp, _, _, rfl, rfl, .inl rfl⟩
    refine ⟨x, xs, h1, h2, y, o', v', g1, g2, g3, ?_⟩
    have e : F64.ofInt (2 ^ 53 + 1) = some (.fin false (2 ^ 52) 1) := by decide +kernel
    rw [e] at hz
    rw [hv, ← Option.some.inj hz]; decide +kernel
  · rintro L b ⟨x, xs, h1, h2, _, h3⟩
    obtain ⟨y, o', v', g1, g2, g3, _, g5⟩ := h3 0 0 _ (.i (2 ^ 53 + 1)) rfl rfl rfl
    refine ⟨x, xs, h1, h2, y, o', v', g1, g2, g3, ?_⟩
    rw [g5]
    · decide +kernel
    · rintro ⟨hw, _⟩
      obtain ⟨o, v, h1, h2⟩ := hw 3 (by simp)
      have h1 : some (⟨.str, .str [97]⟩ : Obj) = some o := h1
      simp at h1; subst h1
      simp [exactNum] at h2

/-- `[7, 2.5, True]` and the set `{2**53, 0.5}` -/
def C10.good : Heap := [
  ⟨.int, .int 7⟩, ⟨.float, .float (.fin false 5 (-1))⟩, ⟨.bool, .bool true⟩, ⟨.list, .seq [0, 1, 2]⟩,
  ⟨.int, .int (2 ^ 53)⟩, ⟨.float, .float (.fin false 1 (-1))⟩, ⟨.set, .set [4, 5]⟩, ⟨.list, .seq [3, 6]⟩]

example : ∃ s', GoodDump (fun _ => True) (Ex.args C10.good 7) Ex.file0 s' := Ex.good_of (by decide +kernel)

/-- **C10 is violated.**  `dump([2**53 + 1, 0.5], f)` returns, `load(f)` returns `[2**53, 0.5]`. -/
theorem C10_violated_list :
    ∃ s' s'' L, dumpTop (Ex.args [⟨.int, .int (2 ^ 53 + 1)⟩, ⟨.float, .float (.fin false 1 (-1))⟩, ⟨.list, .seq [0, 1]⟩] 2) Ex.file0 = (.ok (), s') ∧
      loadTop ⟨Ex.env, [], id, 100⟩ s' = (.ok (L, 3), s'') ∧ L[3]? = some ⟨.list, .seq [1, 2]⟩ ∧
      ∃ v, L[1]? = some ⟨.npFloat64, .np v⟩ ∧ v.val = (.q (2 ^ 53), .q 0) ∧ v.val ≠ (NpVal.i (2 ^ 53 + 1)).val := by
  obtain ⟨s', s'', h1, h2⟩ := Ex.of_roundTrip (env := Ex.env)
    (H := [⟨.int, .int (2 ^ 53 + 1)⟩, ⟨.float, .float (.fin false 1 (-1))⟩, ⟨.list, .seq [0, 1]⟩]) (obj := 2)
    (L := [⟨.tuple, .seq []⟩, ⟨.npFloat64, .np (.f (.fin false (2 ^ 52) 1))⟩, ⟨.npFloat64, .np (.f (.fin false 1 (-1)))⟩, ⟨.list, .seq [1, 2]⟩]) (b := 3)
    (by decide +kernel)
  exact ⟨s', s'', _, h1, h2, rfl, _, rfl, by decide +kernel, by decide +kernel⟩

/-- **C10 is violated.**  `dump({2**53, 2**53 + 1, 0.5}, f)` returns, `load(f)` returns a set of two elements. -/
theorem C10_violated_set :
    ∃ s' s'' L b xs, dumpTop (Ex.args [⟨.int, .int (2 ^ 53)⟩, ⟨.int, .int (2 ^ 53 + 1)⟩, ⟨.float, .float (.fin false 1 (-1))⟩, ⟨.set, .set [0, 1, 2]⟩] 3) Ex.file0 = (.ok (), s') ∧
      loadTop ⟨Ex.env, [], id, 100⟩ s' = (.ok (L, b), s'') ∧ L[b]? = some ⟨.set, .set xs⟩ ∧ xs.length = 2 := by
  have h : ∃ r, Ex.roundTrip Ex.env [⟨.int, .int (2 ^ 53)⟩, ⟨.int, .int (2 ^ 53 + 1)⟩, ⟨.float, .float (.fin false 1 (-1))⟩, ⟨.set, .set [0, 1, 2]⟩] 3 = some r ∧
      r.1[r.2]? = some ⟨.set, .set [1, 3]⟩ := by
    refine ⟨((Ex.roundTrip Ex.env [⟨.int, .int (2 ^ 53)⟩, ⟨.int, .int (2 ^ 53 + 1)⟩, ⟨.float, .float (.fin false 1 (-1))⟩, ⟨.set, .set [0, 1, 2]⟩] 3).getD ([], 0)), ?_, ?_⟩ <;>
    decide +kernel
  obtain ⟨⟨L, b⟩, h1, h2⟩ := h
  obtain ⟨s', s'', e1, e2⟩ := Ex.of_roundTrip h1
  exact ⟨s', s'', L, b, _, e1, e2, h2, rfl⟩

end Verif
