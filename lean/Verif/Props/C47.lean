import Verif.Props.V4Main
import Verif.Props.C41
/-!
# C47: files of hickle 4.0 can be read

What version 4.0 has stored in a file comes back from `load` as the same value, in whatever order h5py lists the members of a group.
`Puts`, `Same`, `Clean`: see `V4Spec.lean`.  The theorem is partial because the property does not hold for the objects that `Clean` leaves
out, see the theorems `C47_violated_…`.
-/
namespace Verif.V4
open V3 (Nd SpK)

/-- **C47** for the objects in `Clean`: if version 4.0 has written the object `v` into the file, `load` returns the same value as soon as the
recursion limit allows it.  `root` may have other members. -/
theorem C47_partial {l : Libs} (hls : Lists l) (hx : TextOk l.env) (hc : CtorOk l) {v : Val} {ms root : Members} (hp : Puts l (ps "data") v ms)
    (hr : ∀ e ∈ ms, Assoc.get? root e.1 = some e.2) (hv : Clean l v) : ∃ w, Same v w ∧ ∃ f0, ∀ f, f0 ≤ f → loadFile l f root = .ok w := by
  obtain ⟨node, rest, w, f0, rfl, _, hs, hf⟩ := hp.loads hls hx hc hv
  refine ⟨w, hs, f0, fun f h => ?_⟩
  rw [loadFile, hr (ps "data", node) (by simp)]
  exact hf f h root hr

/-! ### an example -/

/-- h5py lists by name -/
def Ex.lib : Libs := { v3 := V3.Ex.old, order := V3.sortBy fun a b => V3.textLe a.1 b.1, ctor := fun k v => .ok (.inst k v) }
/-- h5py lists in some other order -/
def Ex.rev : Libs := { Ex.lib with order := List.reverse }

theorem Ex.lib_lists : Lists Ex.lib := fun _ => V3.sortBy_perm ..
theorem Ex.rev_lists : Lists Ex.rev := fun _ => List.reverse_perm _
theorem Ex.lib_byName : ByName Ex.lib := fun ms =>
  V3.sortBy_sorted (le := fun a b : PyStr × Node => V3.textLe a.1 b.1) (fun a b h => (V3.textLe_total a.1 b.1).resolve_left (by simp [h]))
    (fun a b c => V3.textLe_trans a.1 b.1 c.1) ms
theorem Ex.ctorOk : CtorOk Ex.lib := fun _ _ => rfl

/-- two lists, item by item -/
def Ex.Each {α β : Type} (P : Nat → α → β → Prop) : Nat → List α → List β → Prop
  | s, x :: xs, y :: ys => P s x y ∧ Ex.Each P (s + 1) xs ys
  | _, [], [] => True
  | _, _, _ => False

theorem Ex.Each.get {α β : Type} {P : Nat → α → β → Prop} : ∀ {xs : List α} {ys : List β} {s : Nat}, Ex.Each P s xs ys →
    ∀ (i : Nat) (x : α) (y : β), xs[i]? = some x → ys[i]? = some y → P (s + i) x y
  | x :: xs, y :: ys, s, h, 0, x', y', hx, hy => by simp at hx hy; subst hx; subst hy; exact h.1
  | x :: xs, y :: ys, s, h, i + 1, x', y', hx, hy => by
    have := Ex.Each.get h.2 i x' y' (by simpa using hx) (by simpa using hy)
    rwa [show s + 1 + i = s + (i + 1) by omega] at this
  | [], _, _, _, _, _, _, hx, _ => by simp at hx
  | _ :: _, [], _, h, _, _, _, _, _ => h.elim

def Ex.mask : Val := .masked ⟨.int64, [2], [.i 1, .i 2]⟩ [true, false]
def Ex.maskMembers (name : PyStr) : Members :=
  [(name, .dset (.array ⟨.int64, [2], [.i 1, .i 2]⟩) { type := some (.cls .masked), base := some "ndarray_masked_data", npDtype := some (.dt .int64) }),
   (maskName name, .dset (.array ⟨.bool, [2], [.b true, .b false]⟩) { type := some (.cls .ndarray), base := some "ndarray_masked_mask" })]

def Ex.dict : Val := .inst 0 (.dict [(.str (ps "a"), .seq .tuple [.int 7, .int 8]), (.int 3, Ex.mask)])
def Ex.dictNode : Node := .group { type := some (.cls (.user 0)), base := some "dict" }
  [(ps "'a'", .group { base := some "dict_item", keyBase := some "str", keyIdx := some 0 }
      [(ps "data", .dset (.array ⟨.int64, [2], [.i 7, .i 8]⟩) { type := some (.cls .tuple), base := some "tuple" })]),
   (ps "3", .group { base := some "dict_item", keyBase := some "int", keyIdx := some 1 } (Ex.maskMembers (ps "data")))]

/-- `[masked_array, OrderedDict(a=(7, 8), 3: masked_array), ['hello', ''], {1, 'b'}]` -/
def Ex.object : Val := .seq .list [Ex.mask, Ex.dict, .seq .list [.str (ps "hello"), .str []], .seq .set [.int 1, .str (ps "b")]]

def Ex.file : Members := [(ps "data", .group { type := some (.cls .list), base := some "list" }
  [Ex.maskMembers (ps "data_0"),
   [(ps "data_1", Ex.dictNode)],
   [(ps "data_2", .dset (.fixed 5 [2] [[104, 101, 108, 108, 111], []]) { type := some (.cls .list), base := some "list", strType := some "str" })],
   [(ps "data_3", .group { type := some (.cls .set), base := some "set" }
      [[(ps "data_0", .dset (.array ⟨.int64, [], [.i 1]⟩) { type := some (.cls .int), base := some "int" })],
       [(ps "data_1", .dset (.text (ps "b")) { type := some (.cls .str), base := some "str" })]].flatten)]].flatten)]

theorem Ex.names : V3.dataName 0 = ps "data_0" ∧ V3.dataName 1 = ps "data_1" ∧ V3.dataName 2 = ps "data_2" ∧ V3.dataName 3 = ps "data_3" := by decide +kernel

theorem Ex.maskPuts (l : Libs) (name : PyStr) : Puts l name Ex.mask (Ex.maskMembers name) := .masked name ⟨.int64, [2], [.i 1, .i 2]⟩ [true, false] rfl

theorem Ex.dictPuts (name : PyStr) : Puts Ex.lib name Ex.dict [(name, Ex.dictNode)] := by
  refine .dict name (some 0) [(.str (ps "a"), .seq .tuple [.int 7, .int 8]), (.int 3, Ex.mask)]
    [[(ps "data", .dset (.array ⟨.int64, [2], [.i 7, .i 8]⟩) { type := some (.cls .tuple), base := some "tuple" })], Ex.maskMembers (ps "data")] _ rfl rfl ?_ ?_
  · intro i e m n he hm hn
    match i with
    | 0 =>
      simp at he hm hn; subst he; subst hm; subst hn
      exact ⟨congrArg Except.ok (by decide : reprStr V3.Ex.old.printable (ps "a") = ps "'a'"), "str", rfl, rfl⟩
    | 1 =>
      simp at he hm hn; subst he; subst hm; subst hn
      refine ⟨?_, "int", rfl, rfl⟩
      have h1 : digitsOk Ex.lib.v3.env 3 = true := by decide +kernel
      have h2 : showInt 3 = ps "3" := by decide +kernel
      simp only [V3.reprPV, h1, h2, if_true]
    | i + 2 => simp at he
  · intro i e m he hm
    match i with
    | 0 =>
      simp at he hm; subst he; subst hm
      exact .nums (ps "data") none .tuple [.int 7, .int 8] [.i 7, .i 8] .int64 (by simp) rfl (by decide) (by simp)
    | 1 =>
      simp at he hm; subst he; subst hm
      exact Ex.maskPuts _ _
    | i + 2 => simp at he

/-- it is a file of version 4.0 -/
theorem Ex.filePuts : Puts Ex.lib (ps "data") Ex.object Ex.file := by
  obtain ⟨n0, n1, n2, n3⟩ := Ex.names
  refine .items (ps "data") none .list _ _ rfl (by simp) fun i x m hx hm => ?_
  suffices h : Puts Ex.lib (V3.dataName (0 + i)) x m by simpa using h
  refine Ex.Each.get (P := fun i x m => Puts Ex.lib (V3.dataName i) x m) (s := 0) ?_ i x m hx hm
  refine ⟨?_, ?_, ?_, ?_, trivial⟩
  · show Puts Ex.lib (V3.dataName 0) _ _
    rw [n0]; exact Ex.maskPuts _ _
  · show Puts Ex.lib (V3.dataName 1) _ _
    rw [n1]; exact Ex.dictPuts _
  · show Puts Ex.lib (V3.dataName 2) _ _
    rw [n2]
    exact .strs (ps "data_2") .list [ps "hello", []] (by simp) (by simp [IsAscii, ps])
  · show Puts Ex.lib (V3.dataName 3) _ _
    rw [n3]
    refine .items (ps "data_3") none .set _ _ rfl (by simp) fun i x m hx hm => ?_
    suffices h : Puts Ex.lib (V3.dataName (0 + i)) x m by simpa using h
    refine Ex.Each.get (P := fun i x m => Puts Ex.lib (V3.dataName i) x m) (s := 0) ?_ i x m hx hm
    refine ⟨?_, ?_, trivial⟩
    · show Puts Ex.lib (V3.dataName 0) _ _
      rw [n0]; exact .num (ps "data_0") (.int 1) (.i 1) rfl (by decide)
    · show Puts Ex.lib (V3.dataName 1) _ _
      rw [n1]; exact .str (ps "data_1") (ps "b")

/-- and the object is in the domain -/
theorem Ex.clean : Clean Ex.lib Ex.object := by
  have hi : (Ex.lib.env.u 0).importable = true := by decide
  refine .seq _ _ ?_ (by simp) ?_
  · intro x hx
    simp only [List.mem_cons, List.not_mem_nil, or_false] at hx
    rcases hx with rfl | rfl | rfl | rfl
    · exact .masked ..
    · refine .inst _ _ hi (.dict _ ?_ ⟨by decide +kernel, by decide +kernel⟩ ?_ fun _ => Ex.lib_byName)
      · intro e he
        simp only [List.mem_cons, List.not_mem_nil, or_false] at he
        rcases he with rfl | rfl
        · exact .str _ (by decide) (by decide)
        · exact .int _
      · intro e he
        simp only [List.mem_cons, List.not_mem_nil, or_false] at he
        rcases he with rfl | rfl
        · refine .seq _ _ ?_ (by simp) ?_
          · intro x hx
            simp only [List.mem_cons, List.not_mem_nil, or_false] at hx
            rcases hx with rfl | rfl <;> exact .int _
          · intro ss h
            cases ss <;> simp at h
        · exact .masked ..
    · refine .seq _ _ ?_ (by simp) ?_
      · intro x hx
        simp only [List.mem_cons, List.not_mem_nil, or_false] at hx
        rcases hx with rfl | rfl <;> exact .str _
      · intro ss h hw
        match ss, h with
        | [a, b], h =>
          simp at h
          obtain ⟨rfl, rfl⟩ := h
          exact absurd hw (by decide)
    · refine .seq _ _ ?_ (fun _ => ⟨by decide +kernel, by decide +kernel⟩) ?_
      · intro x hx
        simp only [List.mem_cons, List.not_mem_nil, or_false] at hx
        rcases hx with rfl | rfl
        · exact .int _
        · exact .str _
      · intro ss h
        match ss, h with
        | [], h => simp at h
        | _ :: _, h => simp at h
  · intro ss h
    match ss, h with
    | [], h => simp at h
    | _ :: _, h => simp [Ex.mask] at h

/-- so it comes back -/
example : ∃ w, Same Ex.object w ∧ ∃ f0, ∀ f, f0 ≤ f → loadFile Ex.lib f Ex.file = .ok w :=
  C47_partial Ex.lib_lists Verif.Ex.textOk Ex.ctorOk Ex.filePuts (by simp [Ex.file, Assoc.get?]) Ex.clean

/-! ### the objects that do not come back -/

/-- `None`, alone or as an item of another object: the class of `None` was written by dill as `__builtin__.NoneType`, a name Python 3 does not
know and dill, which translates it, is not used any more (lookup.py:105).  The result is a dataset wrapper. -/
theorem C47_violated_none : ∃ ms w, Puts Ex.lib (ps "data") .none ms ∧ loadFile Ex.lib 100 ms = .ok w ∧ w = .recovered ∧ ¬ Same .none w := by
  refine ⟨_, _, .none (ps "data") (.chars [78, 111, 110, 101]), by with_unfolding_all rfl, rfl, fun h => ?_⟩
  cases h

/-- a tuple of strings of at most one character, one of them empty: `("a", "")` comes back as `("a", "\0")` -/
theorem C47_violated_empty_string : ∃ ms w, Puts Ex.lib (ps "data") (.seq .tuple [.str (ps "a"), .str []]) ms ∧ loadFile Ex.lib 100 ms = .ok w ∧
    w = .seq .tuple [.str (ps "a"), .str [0]] ∧ ¬ Same (.seq .tuple [.str (ps "a"), .str []]) w := by
  refine ⟨_, _, .strs (ps "data") .tuple [ps "a", []] (by simp) (by simp [IsAscii, ps]), by with_unfolding_all rfl, rfl, fun h => ?_⟩
  have := h.view
  simp [Val.view, Val.views, ps] at this

/-- an array of single characters: `numpy.array(["a", "b"])` comes back as `numpy.array("a")` -/
theorem C47_violated_characters : ∃ ms w, Puts Ex.lib (ps "data") (.sarr 1 [2] [ps "a", ps "b"]) ms ∧ loadFile Ex.lib 100 ms = .ok w ∧
    w = .sarr 1 [] [ps "a"] ∧ ¬ Same (.sarr 1 [2] [ps "a", ps "b"]) w := by
  refine ⟨_, _, .sarr (ps "data") 1 [2] [ps "a", ps "b"] (by simp) (by simp [IsAscii, ps, widthOk]) rfl, by with_unfolding_all rfl, rfl, fun h => ?_⟩
  cases h

/-- a dictionary with this key and the value 1 -/
def Ex.key (k : V3.PV) : Val := .dict [(k, .int 1)]
/-- in the file -/
def Ex.keyFile (n : PyStr) (b : String) : Members := [(ps "data", .group { type := some (.cls .dict), base := some "dict" }
  [(n, .group { base := some "dict_item", keyBase := some b, keyIdx := some 0 }
    [(ps "data", .dset (.array ⟨.int64, [], [.i 1]⟩) { type := some (.cls .int), base := some "int" })])])]

theorem Ex.keyPuts {k : V3.PV} {n : PyStr} {b : String} (h : V3.reprPV Ex.lib.v3 k = .ok n) (hb : keyBase k = some b) :
    Puts Ex.lib (ps "data") (Ex.key k) (Ex.keyFile n b) := by
  refine .dict (ps "data") none [(k, .int 1)]
    [[(ps "data", .dset (.array ⟨.int64, [], [.i 1]⟩) { type := some (.cls .int), base := some "int" })]] _ rfl rfl ?_ ?_
  · intro i e m n he hm hn
    match i with
    | 0 =>
      simp at he hm hn; subst he; subst hm; subst hn
      exact ⟨h, b, hb, rfl⟩
    | i + 1 => simp at he
  · intro i e m he hm
    match i with
    | 0 =>
      simp at he hm; subst he; subst hm
      exact .num (ps "data") (.int 1) (.i 1) rfl (by decide)
    | i + 1 => simp at he

theorem Ex.key_differ {k k' : V3.PV} {w : Val} (hk : k ≠ k') (h : Same (Ex.key k) (.dict [(k', w)])) : False := by
  unfold Ex.key at h
  cases h with
  | refl => exact hk rfl
  | dict _ h1 _ => exact hk (h1 0 _ _ rfl rfl).symm

/-- bytes as key: `{b"x": 1}` comes back as `{"'x": 1}` -/
theorem C47_violated_bytes_key : ∃ ms w, Puts Ex.lib (ps "data") (Ex.key (.bytes [120])) ms ∧ loadFile Ex.lib 100 ms = .ok w ∧
    w = .dict [(.str (ps "'x"), .int 1)] ∧ ¬ Same (Ex.key (.bytes [120])) w := by
  refine ⟨_, _, Ex.keyPuts (n := ps "b'x'") rfl rfl, rfl, rfl, fun h => Ex.key_differ (by simp) h⟩

/-- a key `repr` writes with a backslash: `{"a\nb": 1}` comes back as `{"a/nb": 1}` -/
theorem C47_violated_escape_key : ∃ ms w, Puts Ex.lib (ps "data") (Ex.key (.str (ps "a\nb"))) ms ∧ loadFile Ex.lib 100 ms = .ok w ∧
    w = .dict [(.str (ps "a/nb"), .int 1)] ∧ ¬ Same (Ex.key (.str (ps "a\nb"))) w := by
  refine ⟨_, _, Ex.keyPuts (n := ps "'a\\nb'") rfl rfl, rfl, rfl, fun h => Ex.key_differ (k' := .str (ps "a/nb")) (by simp [ps]) h⟩

/-- `{False: 1}` comes back as `{True: 1}` -/
theorem C47_violated_false_key : ∃ ms w, Puts Ex.lib (ps "data") (Ex.key (.bool false)) ms ∧ loadFile Ex.lib 100 ms = .ok w ∧
    w = .dict [(.bool true, .int 1)] ∧ ¬ Same (Ex.key (.bool false)) w := by
  refine ⟨_, _, Ex.keyPuts (n := ps "False") rfl rfl, rfl, rfl, fun h => Ex.key_differ (k' := .bool true) (by simp) h⟩

end Verif.V4
