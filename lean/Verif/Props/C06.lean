import Verif.Props.Values
import Verif.Props.Parts
/-!
# C06 Strings and byte strings survive exactly
-/
namespace Verif

variable {P : Nat → Prop}

/-- a Python text or byte string -/
def Obj.isText : Obj → Bool
  | ⟨.str, .str _⟩ | ⟨.bytes, .bytes _⟩ => true
  | _ => false

theorem Obj.isText_atom {o : Obj} (h : o.isText = true) : o.val.isAtom = true ∧ exactNum o = none := by
  obtain ⟨cl, v⟩ := o
  cases v <;> first | exact ⟨rfl, by cases cl <;> first | rfl | simp [Obj.isText] at h⟩ | (cases cl <;> simp [Obj.isText] at h)

/-- **C06.**  Every `str` and `bytes` object loads identical, wherever it is: the dumped object itself, an item,
a dict key or a dict value, at any depth. -/
theorem C06_text {a : DumpArgs} {s s' : Session} (h : GoodDump P a s s') {π : List Step} {c : Addr} {o : Obj}
    (hf : follow a.heap a.obj π = some c) (hc : a.heap[c]? = some o) (ht : o.isText = true) :
    Loads P a.env s'.store a.path fun L b => ∃ x : Addr, follow L b π = some x ∧ L[x]? = some o :=
  h.loads.imp fun _ _ hl => hl.1.exact_nonum hf hc (Obj.isText_atom ht).2 (Obj.isText_atom ht).1

/-- elements of sets -/
theorem C06_in_sets {a : DumpArgs} {s s' : Session} (h : GoodDump P a s s') {π : List Step} {c : Addr} {cl : Cls} {as : List Addr}
    (hf : follow a.heap a.obj π = some c) (hc : a.heap[c]? = some ⟨cl, .set as⟩) {e : Addr} {o : Obj} (he : e ∈ as)
    (ho : a.heap[e]? = some o) (ht : o.isText = true) :
    Loads P a.env s'.store a.path fun L b => ∃ (x : Addr) (xs : List Addr), follow L b π = some x ∧ L[x]? = some ⟨cl, .set xs⟩ ∧
      ∃ y ∈ xs, L[y]? = some o := by
  refine h.loads.imp fun L b hl => ?_
  obtain ⟨x, xs, h1, h2, _, h3, _⟩ := hl.1.set hf hc
  exact ⟨x, xs, h1, h2, h3 e he _ ho (Obj.isText_atom ht).1 (.inl (Obj.isText_atom ht).2)⟩

/-- **C06.**  If dump returned, every `str` in the object consists of Unicode scalar values: a string with a lone
surrogate makes dump raise. -/
theorem C06_surrogates {a : DumpArgs} {s s' : Session} (h : GoodDump P a s s') {c : Addr} {cl : Cls} {t : PyStr} (hr : Reach a.heap a.obj c)
    (ho : a.heap[c]? = some ⟨cl, .str t⟩) : ∀ u ∈ t, u < 0x110000 ∧ ¬ (0xD800 ≤ u ∧ u < 0xE000) := by
  rw [← utf8Encode_isSome_iff]
  rcases h.part hr ho with ⟨H', at', od, subs, _, hh⟩ | ⟨name, kbt, hk, hn⟩ | ⟨v, hv⟩
  · have hfn : (expected a.env cl).2.fn ≠ .none := by
      intro hfn
      have hb := expected_none hfn
      have hok := (h.graph.cls c _ ho).2
      cases cl <;> first
        | (simp [ObjOk, NativeOk] at hok; done)
        | (simp only [ObjOk, UserOk] at hok; exact hok.2.elim)
        | (rw [expected_native a.env rfl (by simp)] at hfn; simp at hfn)
    simp only at hh
    generalize (expected a.env cl).2.fn = fn at hh hfn
    cases hh with
    | str hv he => simp at hv; subst hv; simp [he]
    | none => simp at hfn
    | rowsNil hr | rows hr | oseq hr => cases hr <;> simp_all
    | _ => simp_all
  · simp only [keySlot] at hk
    split at hk
    · simp at hk
    · simp only [Except.ok.injEq, Option.some.injEq, Prod.mk.injEq] at hk
      rw [← hk.1, utf8Encode_isSome_iff] at hn
      rw [utf8Encode_isSome_iff]
      intro u hu
      exact hn u (by simp [hu])
  · cases cl <;> simp [exactNum] at hv

/-- texts with NUL, characters of every UTF-8 length, the empty string, arbitrary bytes -/
def C06.heap : Heap := [
  ⟨.str, .str [0, 65, 0xE9, 0x20AC, 0x1F600, 0x10FFFF, 0]⟩, ⟨.str, .str []⟩, ⟨.bytes, .bytes [0, 255, 128, 47]⟩, ⟨.bytes, .bytes []⟩,
  ⟨.str, .str [47, 92, 34, 0x1F600]⟩, ⟨.dict, .dict [(1, 0), (2, 1), (4, 3)]⟩, ⟨.list, .seq [0, 2, 5]⟩]

example : ∃ s', GoodDump (fun _ => True) (Ex.args C06.heap 6) Ex.file0 s' ∧
    Loads (fun _ => True) Ex.env s'.store [] fun L b => ∃ x : Addr, follow L b [.item 2, .key 2] = some x ∧ L[x]? = some ⟨.str, .str [47, 92, 34, 0x1F600]⟩ := by
  obtain ⟨s', h⟩ := Ex.good_of (H := C06.heap) (obj := 6) (by decide +kernel)
  exact ⟨s', h, C06_text h (c := 4) (by decide +kernel) rfl rfl⟩

/-- a lone surrogate: `dump('\ud800', f)` raises `UnicodeEncodeError` -/
example : Ex.raised (dumpTop (Ex.args [⟨.str, .str [0xD800]⟩] 0) Ex.file0).1 = some .unicodeEncodeError := by decide +kernel

end Verif
