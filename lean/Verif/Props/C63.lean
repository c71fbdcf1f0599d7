import Verif.Hickle.LegacyFile
import Verif.Props.C20
import Verif.Props.C22
import Verif.Props.C41
/-!
# C63: a file of hickle 3 can be given to `load` in every way other files can

Specification: `Gives fs a n`: the argument names or is the file with root group `n`.

`C63_violated_group`: an `h5py.Group`.  `C63_violated_object`: file objects, alone or in a tuple, list or dict.  `load` opens the file,
recognises it as one of hickle 3, and then the code of version 3 refuses the argument.
-/
namespace Verif.V3

/-- the file, given by name, as a `pathlib.Path`, or as an open `h5py.File` -/
inductive Gives (fs : Files) (n : Node) : Arg → Prop
  | name (s : PyStr) (b x) : fs.content (.name s) = some n → Gives fs n ⟨.name s, b, x⟩
  | pathlib (s : PyStr) (b x) : fs.content (.name s) = some n → Gives fs n ⟨.pathlib s, b, x⟩
  | file (g : GroupArg) (x) : g.alive = true → g.name = ps "/" → fs.content (fs.source g.handle) = some n → Gives fs n ⟨.group g, true, x⟩

theorem asAttrs_get (at' : List (String × String)) (k : String) : Assoc.get? (asAttrs at') k = (Assoc.get? at' k).map AttrVal.bytes := by
  induction at' with
  | nil => rfl
  | cons e es ih =>
    simp only [asAttrs, List.map_cons, Assoc.get?] at ih ⊢
    split <;> simp_all

/-- what `dump` of version 3 writes is recognised -/
theorem route_marked {file : Node} (h : Marked file) (ga : Attrs) : route (asAttrs file.attrs) ga = .v3 := by
  obtain ⟨at', ms, rfl, h1, h2, _, h3⟩ := h
  rw [C22_v3]
  refine ⟨fun n hn => ?_, by simp [Node.attrs, asAttrs_get, h1], '3', ['.', '4', '.', '8'], by simp only [Node.attrs, asAttrs_get, h2]; rfl, rfl⟩
  simp only [List.mem_cons, List.not_mem_nil, or_false] at hn
  rcases hn with rfl | rfl | rfl
  · exact ⟨.bytes "hickle", by simp [Node.attrs, asAttrs_get, h1], by decide⟩
  · exact ⟨.bytes "3.4.8", by simp [Node.attrs, asAttrs_get, h2], by decide⟩
  · exact ⟨.bytes "3.8.0", by simp [Node.attrs, asAttrs_get, h3], by decide⟩

/-- what both openers make of such an argument -/
theorem Gives.opens {fs : Files} {n : Node} {a : Arg} (h : Gives fs n a) (path : PyStr) (fn : NameArg) :
    (∃ o, Verif.fileOpener a.arg path (ps "r") fn = .ok o ∧ fs.read o.what = .ok n ∧ Verif.comps o.path = Verif.comps path) ∧
    ∃ o, fileOpener a = .ok o ∧ fs.read o.1 = .ok n := by
  have hr : noB (ps "r") = ps "r" := by decide
  cases h with
  | name s b x h => exact ⟨⟨_, rfl, by simp only [Files.read, hr, true_or, if_true, h], comps_absPath path⟩, _, rfl, by simp only [Files.read, true_or, if_true, h]⟩
  | pathlib s b x h => exact ⟨⟨_, rfl, by simp only [Files.read, hr, true_or, if_true, h], comps_absPath path⟩, _, rfl, by simp only [Files.read, true_or, if_true, h]⟩
  | file g x ha hn h =>
    refine ⟨⟨⟨.given g.handle, g.name ++ rstrip (absPath path), false⟩, ?_, by simp only [Files.read, h], ?_⟩, (.given g.handle, false), by simp [fileOpener, ha], by simp only [Files.read, h]⟩
    · simp only [Verif.fileOpener, ha, Bool.not_true, Bool.false_eq_true, if_false]
      split
      · have : ps "r" = 114 :: [] := by decide
        rw [this]; simp
      · rfl
    · rw [hn]
      show Verif.comps (47 :: rstrip (absPath path)) = _
      rw [comps_slash, comps_rstrip, comps_absPath]

/-- **C63.**  An object in the domain of C41, written by version 3, is loaded with the same value by `load` when the file is given by
name, as a `pathlib.Path` or as an open `h5py.File`, with the path in any spelling.
Missing: `h5py.Group`, file objects, and these in tuples, lists and dicts, for which it does not hold (see below). -/
theorem C63_partial {l : Libs} (hx : TextOk l.env) (hl : Lists l) {v : PV} (hc : CleanTop l v) {fuel : Nat} {path : List PyStr} {root file : Node}
    (hnew : nodeAt path root = none ∨ path = [] ∧ ∃ at', root = .group at' []) (h : dumpFile l fuel path v root = .ok file)
    {fs : Files} {a : Arg} (ha : Gives fs file a) {p : PyStr} (hp : Verif.comps p = path) (safe : Bool) (fn : NameArg) :
    ∃ w, Same v w ∧ ∃ f0, ∀ f, f0 ≤ f → hickleLoad l f fs a p safe fn = .ok w := by
  obtain ⟨w, hw, f0, hf⟩ := C41_partial hx hl hc hnew h
  refine ⟨w, hw, f0, fun f hle => ?_⟩
  have hm := dumpFile_marked h
  obtain ⟨⟨o, h1, h2, h3⟩, o', h4, h5⟩ := ha.opens p fn
  have hl2 : legacyLoad l f fs a o.path safe = .ok w := by
    unfold legacyLoad
    rw [h4]
    show (fs.read o'.1 >>= fun root => loadFile l f (Verif.comps o.path) root) = _
    rw [h5, h3, hp]
    exact hf f hle
  have hn : ∃ at' ms, nodeAt path file = some (.group at' ms) := by
    rcases hnew with hnew | ⟨rfl, _, _⟩
    · cases root with
      | dset d at' => simp [dumpFile] at h
      | group at' ms =>
        rw [dumpFile] at h
        have hn : nodeAt path (.group (mark at') ms) = none := by
          cases path with
          | nil => simp [nodeAt] at hnew
          | cons c cs => rw [nodeAt] at hnew ⊢; exact hnew
        obtain ⟨sub, _, h2⟩ := dumpAt_new hn h
        exact ⟨_, _, h2⟩
    · obtain ⟨at', ms, rfl, _⟩ := hm
      exact ⟨at', ms, rfl⟩
  obtain ⟨at', ms, hn⟩ := hn
  unfold hickleLoad
  rw [h1]
  show (fs.read o.what >>= fun root => match loadTry l f fs a root o.path safe with | .ok v => .ok v | .error e => .error (wrapLoad e)) = _
  rw [h2]
  show (match loadTry l f fs a file o.path safe with | .ok v => Except.ok v | .error e => .error (wrapLoad e)) = _
  have : loadTry l f fs a file o.path safe = .ok w := by
    unfold loadTry
    rw [h3, hp, hn]
    simp only [route_marked hm]
    exact hl2
  rw [this]

/-- the example of C41 is loaded from a file given as an open `h5py.File`, with the path `//` -/
example {file : Node} (h : dumpFile Ex.old 9 [] Ex.object (.group [] []) = .ok file) :
    ∃ w, Same Ex.object w ∧ ∃ f0, ∀ f, f0 ≤ f → hickleLoad Ex.old f ⟨fun _ => some file, fun _ => .name (ps "v3.hkl")⟩ ⟨.group ⟨true, ps "/", 4, true⟩, true, none⟩ (ps "//") true .absent = .ok w :=
  C63_partial Verif.Ex.textOk Ex.old_lists Ex.object_clean (.inr ⟨rfl, _, rfl⟩) h (.file _ _ rfl rfl rfl) (by decide) _ _

/-- an argument the opener of version 3 refuses: no file of hickle 3 is loaded through it -/
theorem refused {l : Libs} {f : Nat} {fs : Files} {a : Arg} {p : PyStr} {safe : Bool} {fn : NameArg} (he : fileOpener a = .error .fileError)
    {o : Opened} (ho : Verif.fileOpener a.arg p (ps "r") fn = .ok o) {file : Node} (hr : fs.read o.what = .ok file) (hm : Marked file) :
    hickleLoad l f fs a p safe fn = .error .valueError := by
  unfold hickleLoad
  rw [ho]
  show (fs.read o.what >>= fun root => match loadTry l f fs a root o.path safe with | .ok v => .ok v | .error e => .error (wrapLoad e)) = _
  rw [hr]
  show (match loadTry l f fs a file o.path safe with | .ok v => Except.ok v | .error e => .error (wrapLoad e)) = _
  have hb : legacyLoad l f fs a o.path safe = .error .fileError := by
    unfold legacyLoad; rw [he]; rfl
  have : loadTry l f fs a file o.path safe = .error .fileError := by
    unfold loadTry
    split
    · simp only [route_marked hm]; exact hb
    · rfl
  rw [this]
  rfl

/-- **The full property does not hold for groups.**  `load` of an open `h5py.Group` of a file of hickle 3 raises `ValueError`, whatever is
in the file and wherever the group is. -/
theorem C63_violated_group (l : Libs) (f : Nat) {fs : Files} {g : GroupArg} (ha : g.alive = true) {file : Node} (hf : fs.content (fs.source g.handle) = some file)
    (hm : Marked file) (p : PyStr) (safe : Bool) (fn : NameArg) (x) : hickleLoad l f fs ⟨.group g, false, x⟩ p safe fn = .error .valueError := by
  refine refused (o := ⟨.given g.handle, g.name ++ rstrip (absPath p), false⟩) (by simp [fileOpener]) ?_ (by simp only [Files.read, hf]) hm
  simp only [Verif.fileOpener, ha, Bool.not_true, Bool.false_eq_true, if_false]
  split
  · have : ps "r" = 114 :: [] := by decide
    rw [this]; simp
  · rfl

/-- **… nor for file objects.**  Every file object that can be read and positioned and is not a text file or a buffered writer, handed in
alone or with a name in a tuple, list or dict: `load` raises `ValueError` for a file of hickle 3. -/
theorem C63_violated_object (l : Libs) (f : Nat) {fs : Files} {a : Arg} {fn : NameArg} {o : FObj} (hs : Stands fn a.arg o) (ho : o.closed = false)
    (hans : o.Answers) (hr : o.CanRead) (hk : o.CanSeek) (hn : (∃ o, a.arg = .obj o) → a.native = none)
    {file : Node} (hf : fs.content (.obj o.id) = some file) (hm : Marked file) (p : PyStr) (safe : Bool) : hickleLoad l f fs a p safe fn = .error .valueError := by
  obtain ⟨m, h1, h2⟩ := (C20_objects hs ho hans p (mode := ps "r") (by decide)).1 ⟨hr, hk, fun h => absurd h (by decide)⟩
  obtain rfl := h2.2 (by decide)
  refine refused ?_ h1 (by simp only [Files.read, true_or, if_true, hf]) hm
  unfold fileOpener
  cases ha : a.arg with
  | obj o => simp only [hn ⟨o, ha⟩]
  | seq _ => rfl
  | dict _ _ => rfl
  | name s => rw [ha] at hs; cases hs
  | pathlib s => rw [ha] at hs; cases hs
  | group g => rw [ha] at hs; cases hs

/-- both: the group `/` of such a file, and the file object `open('v3.hkl', 'rb')` with a name in a tuple -/
example (l : Libs) (f : Nat) {file : Node} (h : dumpFile Ex.old 9 [] Ex.object (.group [] []) = .ok file) :
    hickleLoad l f ⟨fun _ => some file, fun _ => .name (ps "v3.hkl")⟩ ⟨.group ⟨true, ps "/", 4, true⟩, false, none⟩ (ps "/") true .absent = .error .valueError ∧
    hickleLoad l f ⟨fun _ => some file, fun _ => .name (ps "v3.hkl")⟩ ⟨.seq [Verif.Ex.rb, { id := 0 }], false, none⟩ (ps "/") true .absent = .error .valueError :=
  have hm := dumpFile_marked h
  ⟨C63_violated_group l f rfl rfl hm _ _ _ _,
   C63_violated_object l f (.seq Verif.Ex.rb { id := 0 } [] rfl) rfl ⟨by simp [Verif.Ex.rb], by simp [Verif.Ex.rb], by simp [Verif.Ex.rb]⟩
    (.inl rfl) (.inl rfl) (fun ⟨_, h⟩ => by simp at h) rfl hm _ _⟩

end Verif.V3
