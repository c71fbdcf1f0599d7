import Verif.Props.C18
/-!
# C20 File argument handling is total and safe

Specification: the documented modes and what they ask for (`ModeSpec`), and what a file object must be
able to do (`CanRead`, `CanSeek`, `CanWrite`).

`C20_violated_mode`: the documented modes `w+` and `x+` are refused for file names.
`C20_violated_b`: a leading `b` makes `file_opener` refuse a mode for reading.
-/
namespace Verif

/-- the documented modes, each with an optional `b` behind the first letter or at the end -/
def docModes : List PyStr := ["r", "r+", "w", "w+", "x", "x+", "a", "rb", "rb+", "r+b", "wb", "wb+", "w+b", "xb", "xb+", "x+b", "ab"].map ps

/-- the mode asks for permission to change the file -/
def Writes (mode : PyStr) : Prop := mode ∉ ["r", "rb"].map ps

instance (mode : PyStr) : Decidable (Writes mode) := inferInstanceAs (Decidable (_ ∉ _))

/-- the object says that it can be read, or does not say and `read(0)` works -/
def FObj.CanRead (o : FObj) : Prop := o.readable = some (.ok true) ∨ (o.readable = none ∧ o.read = some true)
/-- … can be positioned, or does not say and `seek(0)` and `tell()` work -/
def FObj.CanSeek (o : FObj) : Prop := o.seekable = some (.ok true) ∨ (o.seekable = none ∧ o.seek = some true ∧ o.tell = some true)
/-- … can be written, or does not say and `write(b'')` works -/
def FObj.CanWrite (o : FObj) : Prop := o.writeable = some (.ok true) ∨ (o.writeable = none ∧ o.write = some true)

/-- asking the object does not raise an exception -/
def FObj.Answers (o : FObj) : Prop :=
  (∀ e, o.readable ≠ some (.error e)) ∧ (∀ e, o.seekable ≠ some (.error e)) ∧ (∀ e, o.writeable ≠ some (.error e))

/-- the object that stands for the file: handed in directly, or with a name in a tuple, list or dict -/
inductive Stands (fn : NameArg) : FileArg → FObj → Prop
  | obj (o) : fn ≠ .other → Stands fn (.obj o) o
  | seq (o x rest) : fn = .absent → Stands fn (.seq (o :: x :: rest)) o
  | dict (o x) : fn = .absent → Stands fn (.dict (some o) (some x)) o

theorem Stands.opener {fn : NameArg} {f : FileArg} {o : FObj} (h : Stands fn f o) (path mode : PyStr) :
    fileOpener f path mode fn = openObj o (absPath path) mode := by
  cases h with
  | obj _ h => cases fn <;> first | rfl | exact absurd rfl h
  | seq _ x rest h => subst h; rfl
  | dict _ x h => subst h; rfl

/-- **C20, closed files.**  A closed `h5py` object or file object is refused with `ClosedFileError`, whatever the mode and path. -/
theorem C20_closed (path mode : PyStr) (fn : NameArg) :
    (∀ g : GroupArg, g.alive = false → fileOpener (.group g) path mode fn = .error .closedFileError) ∧
    (∀ f o, Stands fn f o → o.closed = true → fileOpener f path mode fn = .error .closedFileError) := by
  refine ⟨fun g h => by simp [fileOpener, h], fun f o h hc => ?_⟩
  rw [h.opener]
  simp only [openObj, hc, if_true]; rfl

example : fileOpener (.obj { id := 1, closed := true, readable := some (.ok true) }) (ps "/") (ps "r") .absent = .error .closedFileError :=
  (C20_closed _ _ _).2 _ _ (.obj _ (by decide)) rfl

/-- first letter and `+` of the documented modes -/
theorem docMode_form : ∀ mode ∈ docModes, ∃ m0 ms, mode = m0 :: ms ∧ (m0 = 114 ∨ m0 = 119 ∨ m0 = 120 ∨ m0 = 97) ∧
    (Writes mode ↔ (m0 = 120 ∨ m0 = 119 ∨ m0 = 97 ∨ (43 ∈ ms ∧ m0 = 114))) ∧ (Writes mode ↔ (m0 ≠ 114 ∨ 43 ∈ ms)) ∧
    (Writes mode → m0 = 114 → noB mode = ps "r+") ∧ (¬ Writes mode → noB mode = ps "r") := by
  have key : ∀ mode ∈ docModes, mode ≠ [] ∧ ((mode.headD 0 = 114 ∨ mode.headD 0 = 119 ∨ mode.headD 0 = 120 ∨ mode.headD 0 = 97) ∧
      (Writes mode ↔ (mode.headD 0 = 120 ∨ mode.headD 0 = 119 ∨ mode.headD 0 = 97 ∨ (43 ∈ mode.tail ∧ mode.headD 0 = 114))) ∧
      (Writes mode ↔ (mode.headD 0 ≠ 114 ∨ 43 ∈ mode.tail)) ∧
      (Writes mode → mode.headD 0 = 114 → noB mode = ps "r+") ∧ (¬ Writes mode → noB mode = ps "r")) := by decide
  intro mode hm
  obtain ⟨h0, h⟩ := key mode hm
  cases mode with
  | nil => exact absurd rfl h0
  | cons m0 ms => exact ⟨m0, ms, rfl, h⟩

/-- **C20, read-only files.**  An `h5py` object of a file opened for reading is accepted for the documented modes that read,
and refused with `FileError` for those that write. -/
theorem C20_readonly {g : GroupArg} (ha : g.alive = true) (hr : g.readOnly = true) (path : PyStr) {mode : PyStr} (hm : mode ∈ docModes) (fn : NameArg) :
    (Writes mode → fileOpener (.group g) path mode fn = .error .fileError) ∧
    (¬ Writes mode → ∃ o, fileOpener (.group g) path mode fn = .ok o ∧ o.what = .given g.handle ∧ o.closeFlag = false) := by
  obtain ⟨m0, ms, rfl, _, _, hiff, _⟩ := docMode_form mode hm
  simp only [fileOpener, ha, hr, Bool.not_true, Bool.false_eq_true, if_false, if_true]
  refine ⟨fun h => by rw [if_pos (hiff.1 h)], fun h => ?_⟩
  rw [if_neg (fun h' => h (hiff.2 h'))]
  exact ⟨_, rfl, rfl, rfl⟩

/-- For all mode strings: only a mode that begins with `r` and has no `+` gets past a read-only file, so no file is ever
changed through it. -/
theorem C20_readonly_any {g : GroupArg} (hr : g.readOnly = true) {path mode : PyStr} {fn : NameArg} {o : Opened}
    (h : fileOpener (.group g) path mode fn = .ok o) : mode.head? = some 114 ∧ 43 ∉ mode := by
  simp only [fileOpener, hr, if_true] at h
  split at h
  · simp at h
  · split at h
    · simp at h
    · next m0 ms =>
      split at h
      · simp at h
      · next hn =>
        have hn' : m0 = 114 ∧ 43 ∉ ms := ⟨Classical.byContradiction fun h1 => hn (.inl h1), fun h2 => hn (.inr h2)⟩
        obtain ⟨rfl, h2⟩ := hn'
        exact ⟨rfl, by simp [h2]⟩

theorem capable_true {attr : Option Call} {cmds : List (Option Bool)} : capable attr cmds = .ok true ↔ attr = some (.ok true) ∨ (attr = none ∧ mustTest cmds = true) := by
  cases attr with
  | none => simp [capable]
  | some r => simp [capable]

theorem canRead_iff (o : FObj) : capable o.readable [o.read] = .ok true ↔ o.CanRead := by
  rw [capable_true]; simp [FObj.CanRead, mustTest]
theorem canSeek_iff (o : FObj) : capable o.seekable [o.seek, o.tell] = .ok true ↔ o.CanSeek := by
  rw [capable_true]; simp [FObj.CanSeek, mustTest]
theorem canWrite_iff (o : FObj) : capable o.writeable [o.write] = .ok true ↔ o.CanWrite := by
  rw [capable_true]; simp [FObj.CanWrite, mustTest]

theorem capable_answers {attr : Option Call} (h : ∀ e, attr ≠ some (.error e)) (cmds : List (Option Bool)) : ∃ b, capable attr cmds = .ok b := by
  cases attr with
  | none => exact ⟨_, rfl⟩
  | some r =>
    cases r with
    | error e => exact absurd rfl (h e)
    | ok b => exact ⟨b, rfl⟩

/-- **C20, file objects.**  For every documented mode an open file object that answers is accepted if and only if it can be
read and positioned and, when the mode asks for it, written.  Otherwise `FileError` is raised. -/
theorem C20_objects {fn : NameArg} {f : FileArg} {o : FObj} (hs : Stands fn f o) (hc : o.closed = false) (hans : o.Answers) (path : PyStr) {mode : PyStr}
    (hm : mode ∈ docModes) :
    ((o.CanRead ∧ o.CanSeek ∧ (Writes mode → o.CanWrite)) → ∃ m, fileOpener f path mode fn = .ok ⟨.h5File (.obj o.id) m, absPath path, true⟩ ∧ (m = ps "r" ↔ ¬ Writes mode)) ∧
    (¬ (o.CanRead ∧ o.CanSeek ∧ (Writes mode → o.CanWrite)) → fileOpener f path mode fn = .error .fileError) := by
  rw [hs.opener]
  obtain ⟨m0, ms, rfl, h1, h2, _, h3, h4⟩ := docMode_form mode hm
  obtain ⟨a1, a2, a3⟩ := hans
  obtain ⟨br, hbr⟩ := capable_answers a1 [o.read]
  obtain ⟨bs, hbs⟩ := capable_answers a2 [o.seek, o.tell]
  obtain ⟨bw, hbw⟩ := capable_answers a3 [o.write]
  have cr : o.CanRead ↔ br = true := by rw [← canRead_iff, hbr]; simp
  have cs : o.CanSeek ↔ bs = true := by rw [← canSeek_iff, hbs]; simp
  have cw : o.CanWrite ↔ bw = true := by rw [← canWrite_iff, hbw]; simp
  have r1 : ps "r" = [114] := by decide
  have r2 : ps "r+" = [114, 43] := by decide
  rw [cr, cs, cw]
  simp only [openObj, hc, hbr, bind, Except.bind, pure, Except.pure, throw, throwThe, MonadExceptOf.throw, Bool.false_eq_true, if_false]
  cases br with
  | false => simp
  | true =>
    simp only [if_true, hbs]
    cases bs with
    | false => simp
    | true =>
      simp only [if_true, true_and]
      by_cases hw : Writes (m0 :: ms)
      · rw [if_pos (h2.1 hw), hbw]
        cases bw with
        | false => simp [hw]
        | true =>
          simp only [Bool.not_true, Bool.false_eq_true, if_false]
          refine ⟨fun _ => ⟨_, rfl, ?_⟩, fun h => absurd (fun _ => trivial) h⟩
          simp only [hw, not_true_eq_false, iff_false]
          split
          · next h0 => rw [h3 hw h0, r1, r2]; decide
          · next h0 => rw [r1]; simpa using h0
      · have : m0 = 114 := by
          rcases h1 with h | h | h | h
          · exact h
          · exact absurd (h2.2 (.inr (.inl h))) hw
          · exact absurd (h2.2 (.inl h)) hw
          · exact absurd (h2.2 (.inr (.inr (.inl h)))) hw
        rw [if_neg (fun h => hw (h2.2 h)), if_neg (by simp [this])]
        refine ⟨fun _ => ⟨_, rfl, ?_⟩, fun h => absurd (fun h' => absurd h' hw) h⟩
        simp only [hw, not_false_eq_true, iff_true]
        rw [if_pos this, h4 hw]

/-- … a file opened with `open(name, 'rb')`: can be read and positioned, not written (the attribute `writeable` that is asked
for does not exist, so `write(b'')` is tried) -/
def Ex.rb : FObj := { id := 3, readable := some (.ok true), seekable := some (.ok true), read := some true, seek := some true, tell := some true, write := some false }

example : (∃ m, fileOpener (.seq [Ex.rb, { id := 0 }]) (ps "x") (ps "rb") .absent = .ok ⟨.h5File (.obj 3) m, absPath (ps "x"), true⟩ ∧ (m = ps "r" ↔ ¬ Writes (ps "rb"))) ∧
    fileOpener (.obj Ex.rb) (ps "x") (ps "w") .absent = .error .fileError :=
  ⟨(C20_objects (.seq Ex.rb { id := 0 } [] rfl) rfl ⟨by simp [Ex.rb], by simp [Ex.rb], by simp [Ex.rb]⟩ (ps "x") (by decide)).1
     ⟨.inl rfl, .inl rfl, fun h => absurd h (by decide)⟩,
   (C20_objects (.obj Ex.rb (by decide)) rfl ⟨by simp [Ex.rb], by simp [Ex.rb], by simp [Ex.rb]⟩ (ps "x") (by decide)).2
     (by rintro ⟨_, _, h⟩; rcases h (by decide) with h | ⟨_, h⟩ <;> simp [Ex.rb] at h)⟩

/-- **C20, names.**  A file name or `Path` is handed to `h5py.File` as it is, with the mode without `b`. -/
theorem C20_names (s path mode : PyStr) (fn : NameArg) :
    fileOpener (.name s) path mode fn = .ok ⟨.h5File (.name s) (noB mode), absPath path, true⟩ ∧
    fileOpener (.pathlib s) path mode fn = .ok ⟨.h5File (.name s) (noB mode), absPath path, true⟩ := ⟨rfl, rfl⟩

/-- **C20, paths.**  The path used in the file leads through the group that was handed in (if one was) and then along the path
given, whether or not this begins or ends with slashes; it begins with `/`. -/
theorem C20_paths {f : FileArg} {path mode : PyStr} {fn : NameArg} {o : Opened} (h : fileOpener f path mode fn = .ok o) :
    match f with
    | .group g => comps o.path = comps g.name ++ comps path ∧ (g.name.head? = some 47 → o.path.head? = some 47)
    | _ => comps o.path = comps path ∧ o.path.head? = some 47 := by
  have habs : (absPath path).head? = some 47 := by
    unfold absPath; split
    · assumption
    · rfl
  have hobj : ∀ (x : FObj), openObj x (absPath path) mode = .ok o → comps o.path = comps path ∧ o.path.head? = some 47 := by
    intro x hx
    have : o.path = absPath path := by
      simp only [openObj, bind, Except.bind, pure, Except.pure, throw, throwThe, MonadExceptOf.throw] at hx
      repeat' split at hx
      all_goals first
        | (simp at hx; done)
        | (simp only [Except.ok.injEq] at hx; subst hx; rfl)
    rw [this, comps_absPath]; exact ⟨rfl, habs⟩
  cases f with
  | group g =>
    have : o.path = g.name ++ rstrip (absPath path) := by
      simp only [fileOpener] at h
      repeat' split at h
      all_goals first
        | (simp at h; done)
        | (simp only [Except.ok.injEq] at h; subst h; rfl)
    simp only [this]
    constructor
    · rcases rstrip_abs path with h0 | ⟨t, ht⟩
      · have hp : comps path = [] := by rw [← comps_absPath, ← comps_rstrip, h0]; rfl
        rw [h0, hp]; simp
      · rw [ht, comps_append, ← comps_slash t, ← ht, comps_rstrip, comps_absPath]
    · intro hn
      cases hg : g.name with
      | nil => rw [hg] at hn; simp at hn
      | cons c cs => rw [hg] at hn; simpa using hn
  | name s => simp [fileOpener] at h; subst h; exact ⟨comps_absPath path, habs⟩
  | pathlib s => simp [fileOpener] at h; subst h; exact ⟨comps_absPath path, habs⟩
  | seq items =>
    cases fn with
    | other => simp [fileOpener] at h
    | text => exact hobj { id := 0 } h
    | absent =>
      match items with
      | [] => exact hobj { id := 0 } h
      | [_] => exact hobj { id := 0 } h
      | x :: _ :: _ => exact hobj x h
  | dict a b =>
    cases fn with
    | other => simp [fileOpener] at h
    | text => exact hobj { id := 0 } h
    | absent =>
      cases a <;> cases b <;> first | (simp [fileOpener] at h; done) | exact hobj _ h
  | obj x =>
    cases fn with
    | other => simp [fileOpener] at h
    | text => exact hobj x h
    | absent => exact hobj x h

/-- the group `/run/1` and the path `//a/` -/
example : comps (ps "/run/1" ++ rstrip (absPath (ps "//a/"))) = [ps "run", ps "1", ps "a"] := by decide

/-- **C20, exceptions.**  For documented arguments (a documented mode, a file name argument of the right type, both entries in a
dict, a file object that answers) `file_opener` itself raises only `ClosedFileError` and `FileError`. -/
theorem C20_errors {f : FileArg} {path mode : PyStr} {fn : NameArg} (hm : mode ∈ docModes) (hn : fn ≠ .other)
    (hd : ∀ a b, f = .dict a b → a.isSome ∧ b.isSome)
    (hans : ∀ o, Stands fn f o → o.Answers) {e : PyErr} (h : fileOpener f path mode fn = .error e) : e = .closedFileError ∨ e = .fileError := by
  have hobj : ∀ o : FObj, o.Answers → openObj o (absPath path) mode = .error e → e = .closedFileError ∨ e = .fileError := by
    intro o ho hx
    have := C20_objects (fn := .absent) (.obj o (by decide))
    cases hc : o.closed with
    | true =>
      have := (C20_closed path mode .absent).2 (.obj o) o (.obj o (by decide)) hc
      rw [(Stands.obj (fn := .absent) o (by decide)).opener, hx] at this
      simp at this; exact .inl this
    | false =>
      obtain ⟨g1, g2⟩ := C20_objects (fn := .absent) (.obj o (by decide)) hc ho path hm
      rw [(Stands.obj (fn := .absent) o (by decide)).opener, hx] at g1 g2
      by_cases hk : o.CanRead ∧ o.CanSeek ∧ (Writes mode → o.CanWrite)
      · obtain ⟨m, hm, _⟩ := g1 hk; simp at hm
      · have := g2 hk; simp at this; exact .inr this
  have bare : (FObj.Answers { id := 0 }) := ⟨by simp, by simp, by simp⟩
  cases f with
  | name s => simp [fileOpener] at h
  | pathlib s => simp [fileOpener] at h
  | group g =>
    simp only [fileOpener] at h
    split at h
    · simp at h; exact .inl h.symm
    · split at h
      · split at h
        · exfalso; revert hm; decide
        · split at h
          · simp at h; exact .inr h.symm
          · simp at h
      · simp at h
  | seq items =>
    cases fn with
    | other => exact absurd rfl hn
    | text => exact hobj _ bare h
    | absent =>
      match items with
      | [] => exact hobj _ bare h
      | [_] => exact hobj _ bare h
      | x :: y :: r => exact hobj x (hans x (.seq x y r rfl)) h
  | dict a b =>
    cases fn with
    | other => exact absurd rfl hn
    | text => exact hobj _ bare h
    | absent =>
      obtain ⟨h1, h2⟩ := hd a b rfl
      cases a with
      | none => simp at h1
      | some a =>
        cases b with
        | none => simp at h2
        | some b => exact hobj a (hans a (.dict a b rfl)) h
  | obj x =>
    cases fn with
    | other => exact absurd rfl hn
    | text => exact hobj x (hans x (.obj x (by decide))) h
    | absent => exact hobj x (hans x (.obj x (by decide))) h

/-- **C20 is violated.**  The documented modes `w+` and `x+` are refused when the file is given by its name. -/
theorem C20_violated_mode (a : DumpArgs) (s path : PyStr) (flt : Faults) (w : World) {mode : PyStr} (hm : mode ∈ ["w+", "x+", "wb+", "xb+"].map ps) :
    mode ∈ docModes ∧ dumpFile a (.name s) mode path .absent flt w = (.error .valueError, w) := by
  refine ⟨by revert mode; decide, ?_⟩
  have : h5Mode (noB mode) = none := by revert mode; decide
  unfold dumpFile withFile
  rw [(C20_names s path mode .absent).1, M.bind_of_ok (show M.ofExcept _ w = (.ok _, w) from rfl),
    M.bind_of_error (show openWhat _ flt w = (.error .valueError, w) by simp [openWhat, h5Open, this])]

/-- **C20 is violated.**  "The 'b' flag is optional": the mode `br` reads a file given by name, and is refused for a read-only
`h5py.File` and for a file object. -/
theorem C20_violated_b :
    (∃ o, fileOpener (.name (ps "a.h5")) (ps "/") (ps "br") .absent = .ok o) ∧
    fileOpener (.group ⟨true, ps "/", 0, true⟩) (ps "/") (ps "br") .absent = .error .fileError ∧
    fileOpener (.obj Ex.rb) (ps "/") (ps "br") .absent = .error .valueError := by
  refine ⟨⟨_, rfl⟩, ?_, ?_⟩ <;> rfl

/-- other exceptions for arguments that are not documented -/
example : fileOpener (.obj Ex.rb) (ps "/") [] .absent = .error .indexError ∧ fileOpener (.dict (some Ex.rb) none) (ps "/") (ps "r") .absent = .error .keyError ∧
    fileOpener (.obj Ex.rb) (ps "/") (ps "q") .absent = .error .valueError ∧ fileOpener (.obj Ex.rb) (ps "/") (ps "r") .other = .error .valueError := by
  refine ⟨?_, ?_, ?_, ?_⟩ <;> rfl

end Verif
