import Verif.Props.C20
import Verif.Props.C39
import Verif.Hickle.LoadCache
/-!
# C68 It makes no difference how the file and the place in it are given

Specification: `GivenAs`, the ways to say "the group with path `q` in the file `src`" that the documentation offers: the name, a `pathlib.Path`, a file object
(alone, or with a name in a tuple, list or dict), an open `h5py.File`, a group in it and the rest of the path.

`C68_violated`: a file whose types table is damaged loads when it is opened for reading, and does not through a file that is open for writing.

The model does not have what HDF5 says about files that are open twice; a file can have any number of handles.
-/
namespace Verif

/-- The arguments `f`, `path` and `fn` (`filename`) stand for the group with path `q` in the file `src`, in a call with the given mode; the file is open
already, and no call is in progress for it, or it can be opened. -/
inductive GivenAs (w : World) (mode : PyStr) (src : Source) (q : List PyStr) : FileArg → PyStr → NameArg → Prop
  | name {n path : PyStr} {fn : NameArg} : src = .name n → comps path = q → GivenAs w mode src q (.name n) path fn
  | pathlib {n path : PyStr} {fn : NameArg} : src = .name n → comps path = q → GivenAs w mode src q (.pathlib n) path fn
  | object {f : FileArg} {o : FObj} {path : PyStr} {fn : NameArg} : Stands fn f o → o.closed = false → o.Answers → o.CanRead → o.CanSeek →
      (Writes mode → o.CanWrite) → src = .obj o.id → comps path = q → GivenAs w mode src q f path fn
  | group {g : GroupArg} {hd : Handle} {path : PyStr} {fn : NameArg} : g.alive = true → w.handles[g.handle]? = some hd → hd.src = src → hd.ldr = false →
      hd.ref = false → g.readOnly = !hd.writable → (Writes mode → hd.writable = true) → comps g.name ++ comps path = q → GivenAs w mode src q (.group g) path fn

/-- the file can be changed through the argument although the call need not: it is open for writing already -/
def FileArg.OpenForWriting : FileArg → Prop
  | .group g => g.readOnly = false
  | _ => False

/-- the modes in which what is in the file is kept and a file must not be missing, or may -/
def keepModes : List PyStr := ["r", "rb", "r+", "rb+", "r+b", "a", "ab"].map ps

theorem keepModes_doc : ∀ m ∈ keepModes, m ∈ docModes ∧ (∀ S, ∃ k, h5Mode (noB m) = some k ∧ h5Content (some S) k = .ok (S, decide (Writes m))) := by
  have key : ∀ m ∈ keepModes, m ∈ docModes ∧ (h5Mode (noB m) = some .r ∧ ¬ Writes m ∨ (h5Mode (noB m) = some .rp ∨ h5Mode (noB m) = some .a) ∧ Writes m) := by decide
  intro m hm
  obtain ⟨h1, h2⟩ := key m hm
  refine ⟨h1, fun S => ?_⟩
  rcases h2 with ⟨h, hw⟩ | ⟨h | h, hw⟩ <;> exact ⟨_, h, by simp [h5Content, hw]⟩

/-- for file objects, the mode that `h5py.File` gets has the same meaning -/
theorem keepModes_obj : ∀ m ∈ keepModes, ∀ m0 ms, m = m0 :: ms → h5Mode (if m0 = 114 then noB m else [m0]) = h5Mode (noB m) := by
  have key : ∀ m ∈ keepModes, h5Mode (if m.headD 0 = 114 then noB m else [m.headD 0]) = h5Mode (noB m) := by decide
  intro m hm m0 ms e
  have := key m hm
  rw [e] at this ⊢
  exact this

/-- a call on a file that is opened for it -/
theorem withFile_open {α : Type} {f : FileArg} {path mode p m : PyStr} {fn : NameArg} {src : Source} (x : List PyStr → SM α) {w : World} {k : H5Mode} {S : Store} {wr : Bool}
    (hop : fileOpener f path mode fn = .ok ⟨.h5File src m, p, true⟩) (hm : h5Mode m = some k) (hc : h5Content (w.content src) k = .ok (S, wr)) :
    let r := x (comps p) { store := S, writable := wr, reg := w.reg }
    let c := withFile f path mode fn {} (fun h p => onHandle h (x (comps p))) w
    c.1 = r.1 ∧ c.2.content src = some r.2.store ∧ c.2.reg = r.2.reg := by
  intro r c
  let w1 : World := { w with files := Assoc.put w.files src S, handles := w.handles ++ [{ src := src, writable := wr }] }
  have h2 : openWhat (.h5File src m) {} w = (.ok w.handles.length, w1) := by
    unfold World.content at hc
    simp only [openWhat, h5Open, hm, hc]; rfl
  have h3 : c = finally' (onHandle w.handles.length (x (comps p))) (closing w.handles.length true {}) w1 := by
    simp only [c, withFile]
    rw [hop, M.bind_of_ok (show M.ofExcept _ w = (.ok _, w) from rfl), M.bind_of_ok h2]
  have h4 : onHandle w.handles.length (x (comps p)) w1 = (r.1, { w1 with
        files := Assoc.put w1.files src r.2.store
        reg := r.2.reg
        handles := w1.handles.modify w.handles.length fun hd => { hd with ldr := r.2.ldr, ref := r.2.ref } }) := by
    simp only [onHandle, w1, List.getElem?_concat_length, Assoc.get?_put_self]; rfl
  refine ⟨?_, ?_, ?_⟩
  · rw [h3, finally_eq, h4, closing_eq]; rfl
  · rw [h3, finally_state, h4]
    unfold World.content
    rw [closing_files]; exact Assoc.get?_put_self _ _ _
  · rw [h3, finally_state, h4, closing_reg]

/-- a call on a file that is open -/
theorem withFile_given {α : Type} {f : FileArg} {path mode p : PyStr} {fn : NameArg} {i : Nat} {hd : Handle} (x : List PyStr → SM α) {w : World} {S : Store}
    (hop : fileOpener f path mode fn = .ok ⟨.given i, p, false⟩) (hh : w.handles[i]? = some hd) (hS : w.content hd.src = some S) :
    let r := x (comps p) { store := S, writable := hd.writable, ldr := hd.ldr, ref := hd.ref, reg := w.reg }
    let c := withFile f path mode fn {} (fun h p => onHandle h (x (comps p))) w
    c.1 = r.1 ∧ c.2.content hd.src = some r.2.store ∧ c.2.reg = r.2.reg := by
  intro r c
  have h3 : c = finally' (onHandle i (x (comps p))) (closing i false {}) w := by
    simp only [c, withFile]
    rw [hop, M.bind_of_ok (show M.ofExcept _ w = (.ok _, w) from rfl), M.bind_of_ok (show openWhat (.given i) {} w = (.ok i, w) from rfl)]
  have h4 : onHandle i (x (comps p)) w = (r.1, { w with
        files := Assoc.put w.files hd.src r.2.store
        reg := r.2.reg
        handles := w.handles.modify i fun hd => { hd with ldr := r.2.ldr, ref := r.2.ref } }) := by
    unfold World.content at hS
    simp only [onHandle, hh, hS]; rfl
  refine ⟨?_, ?_, ?_⟩
  · rw [h3, finally_eq, h4, closing_eq]; rfl
  · rw [h3, finally_state, h4]
    unfold World.content
    rw [closing_files]; exact Assoc.get?_put_self _ _ _
  · rw [h3, finally_state, h4, closing_reg]

open Classical in
/-- Whatever the way: the call works on the content of the file, at path `q`. -/
theorem GivenAs.call {α : Type} {w : World} {mode path : PyStr} {src : Source} {q : List PyStr} {f : FileArg} {fn : NameArg} (h : GivenAs w mode src q f path fn)
    (hm : mode ∈ keepModes) {S : Store} (hS : w.content src = some S) (x : List PyStr → SM α) :
    let r := x q { store := S, writable := decide (Writes mode ∨ f.OpenForWriting), reg := w.reg }
    let c := withFile f path mode fn {} (fun h p => onHandle h (x (comps p))) w
    c.1 = r.1 ∧ c.2.content src = some r.2.store ∧ c.2.reg = r.2.reg := by
  obtain ⟨hdoc, hk⟩ := keepModes_doc mode hm
  obtain ⟨k, hk1, hk2⟩ := hk S
  cases h with
  | @name n _ _ h1 h2 =>
    subst h1 h2
    have := withFile_open x (C20_names n path mode fn).1 hk1 (by rw [hS]; exact hk2)
    simpa [comps_absPath, FileArg.OpenForWriting] using this
  | @pathlib n _ _ h1 h2 =>
    subst h1 h2
    have := withFile_open x (C20_names n path mode fn).2 hk1 (by rw [hS]; exact hk2)
    simpa [comps_absPath, FileArg.OpenForWriting] using this
  | @object _ o _ _ h1 h2 h3 h4 h5 h6 h7 h8 =>
    subst h7 h8
    obtain ⟨m, hop, _⟩ := (C20_objects h1 h2 h3 path hdoc).1 ⟨h4, h5, h6⟩
    have hmode : h5Mode m = some k := by
      have hop' := hop
      obtain ⟨m0, ms, hms, _⟩ := docMode_form mode hdoc
      rw [h1.opener] at hop'
      unfold openObj at hop'
      simp only [h2, Bool.false_eq_true, if_false, (canRead_iff o).2 h4, (canSeek_iff o).2 h5, hms] at hop'
      rw [← hk1, ← keepModes_obj mode hm m0 ms hms, hms]
      simp only [bind, Except.bind, pure, Except.pure, throw, throwThe, MonadExceptOf.throw, if_true] at hop'
      repeat' split at hop'
      all_goals first | (cases hop'; done) | (simp only [Except.ok.injEq, Opened.mk.injEq, Opening.h5File.injEq] at hop'; rw [← hop'.1.2]; simp [*])
    have hof : ¬ f.OpenForWriting := by cases h1 <;> exact id
    have := withFile_open x hop hmode (by rw [hS]; exact hk2)
    simpa [comps_absPath, hof] using this
  | @group g hd _ _ h1 h2 h3 h4 h5 h6 h7 h8 =>
    subst h3 h8
    have hop : fileOpener (.group g) path mode fn = .ok ⟨.given g.handle, g.name ++ rstrip (absPath path), false⟩ := by
      by_cases hr : g.readOnly = true
      · obtain ⟨m0, ms, hms, _, _, hiff, _⟩ := docMode_form mode hdoc
        have hw : ¬ Writes mode := by
          intro hw
          rw [h7 hw] at h6
          rw [h6] at hr; cases hr
        simp only [fileOpener, h1, hr, hms, Bool.not_true, Bool.false_eq_true, if_false, if_true]
        rw [if_neg (fun h' => hw (hiff.2 h'))]
      · simp only [fileOpener, h1, hr, Bool.not_true, Bool.false_eq_true, if_false]
    have := withFile_given x hop h2 hS
    have hp : comps (g.name ++ rstrip (absPath path)) = comps g.name ++ comps path := (C20_paths hop).1
    have hw : decide (Writes mode ∨ (FileArg.group g).OpenForWriting) = hd.writable := by
      cases hwr : hd.writable with
      | true => rw [hwr] at h6; simp [FileArg.OpenForWriting, h6]
      | false =>
        rw [hwr] at h6 h7
        simp only [FileArg.OpenForWriting, h6, decide_eq_false_iff_not]
        rintro (h | h)
        · exact absurd (h7 h) (by simp)
        · cases h
    simp only [hw]
    rw [hp, h4, h5] at this
    exact this

/-- **C68, dump.**  Two calls of dump with the same object and options, in one mode that writes and keeps what is in the file, where the files have the
same content, to the same path, given in any two ways: the same outcome, exceptions included, and the same content of the file afterwards. -/
theorem C68_dump {a : DumpArgs} {mode : PyStr} (hm : mode ∈ keepModes) (hw : Writes mode) {w1 w2 : World} {src1 src2 : Source} {q : List PyStr}
    {f1 f2 : FileArg} {path1 path2 : PyStr} {fn1 fn2 : NameArg} (h1 : GivenAs w1 mode src1 q f1 path1 fn1) (h2 : GivenAs w2 mode src2 q f2 path2 fn2)
    {S : Store} (hS1 : w1.content src1 = some S) (hS2 : w2.content src2 = some S) (hr : w1.reg = w2.reg) :
    (dumpFile a f1 mode path1 fn1 {} w1).1 = (dumpFile a f2 mode path2 fn2 {} w2).1 ∧
    (dumpFile a f1 mode path1 fn1 {} w1).2.content src1 = (dumpFile a f2 mode path2 fn2 {} w2).2.content src2 := by
  obtain ⟨k1, k2, _⟩ := h1.call hm hS1 fun q => dumpTop { a with path := q }
  obtain ⟨l1, l2, _⟩ := h2.call hm hS2 fun q => dumpTop { a with path := q }
  simp only [hw, true_or, decide_true, hr] at k1 k2 l1 l2
  exact ⟨k1.trans l1.symm, k2.trans l2.symm⟩

open Classical in
/-- **C68, load.**  Two calls of load on files with the same content (any content, also damaged), at the same path, given in any two ways: the same outcome,
exceptions included, unless one of the two is open for writing and the other is not. -/
theorem C68_load_partial {a : LoadArgs} {w1 w2 : World} {src1 src2 : Source} {q : List PyStr} {f1 f2 : FileArg} {path1 path2 : PyStr} {fn1 fn2 : NameArg}
    (h1 : GivenAs w1 (ps "r") src1 q f1 path1 fn1) (h2 : GivenAs w2 (ps "r") src2 q f2 path2 fn2) (ho : f1.OpenForWriting ↔ f2.OpenForWriting)
    {S : Store} (hS1 : w1.content src1 = some S) (hS2 : w2.content src2 = some S) (hr : w1.reg = w2.reg) :
    (loadFile a f1 path1 fn1 {} w1).1 = (loadFile a f2 path2 fn2 {} w2).1 := by
  have hm : ps "r" ∈ keepModes := by decide
  obtain ⟨k1, _⟩ := h1.call hm hS1 fun q => loadTop { a with path := q }
  obtain ⟨l1, _⟩ := h2.call hm hS2 fun q => loadTop { a with path := q }
  have e : decide (Writes (ps "r") ∨ f1.OpenForWriting) = decide (Writes (ps "r") ∨ f2.OpenForWriting) := decide_eq_decide.2 (or_congr_right ho)
  simp only [hr] at k1 l1
  rw [e] at k1
  exact k1.trans l1.symm

open Classical in
/-- **C68, load, open for writing or not.**  Where there is a types table: what load returns through a file that is open for writing, it returns in every other
way too.  So two ways never give different objects; at most the one that is open for writing raises an exception. -/
theorem C68_load_reading_partial {a : LoadArgs} {w1 w2 : World} {src1 src2 : Source} {q : List PyStr} {f1 f2 : FileArg} {path1 path2 : PyStr} {fn1 fn2 : NameArg}
    (h1 : GivenAs w1 (ps "r") src1 q f1 path1 fn1) (h2 : GivenAs w2 (ps "r") src2 q f2 path2 fn2) {S : Store} (hS1 : w1.content src1 = some S) (hS2 : w2.content src2 = some S)
    (hr : w1.reg = w2.reg) {T : NodeId} (hT : S.resolve 0 (q ++ [tableName]) = some T) (ho : f1.OpenForWriting) {v : Heap × Addr}
    (hv : (loadFile a f1 path1 fn1 {} w1).1 = .ok v) : (loadFile a f2 path2 fn2 {} w2).1 = .ok v := by
  by_cases ho2 : f2.OpenForWriting
  · rw [← hv]
    exact (C68_load_partial h1 h2 ⟨fun _ => ho2, fun _ => ho⟩ hS1 hS2 hr).symm
  · have hm : ps "r" ∈ keepModes := by decide
    have hw : ¬ Writes (ps "r") := by decide
    obtain ⟨k1, _⟩ := h1.call hm hS1 fun q => loadTop { a with path := q }
    obtain ⟨l1, _⟩ := h2.call hm hS2 fun q => loadTop { a with path := q }
    simp only [ho, or_true, decide_true, hr] at k1
    simp only [ho2, hw, or_self, decide_false] at l1
    rw [Store.resolve_append] at hT
    cases hg : S.resolve 0 q with
    | none => rw [hg] at hT; simp at hT
    | some g =>
      rw [hg] at hT
      simp only [Option.bind_some, Store.resolve] at hT
      cases hl : S.links g with
      | none => simp [hl] at hT
      | some ls =>
        cases ht : Assoc.get? ls tableName with
        | none => simp [hl, ht] at hT
        | some T' => exact l1.trans (loadTop_reading (a := { a with path := q }) (s := { store := S, writable := true, reg := w2.reg }) hg hl ht (k1.symm.trans hv))

/-- In every world in which the file has content `S`, loading path `q`, given in any way, returns an object `b` of a heap `L` such that `φ L b`, and the
file is left as it is. -/
def LoadsWays (P : Nat → Prop) (env : Env) (S : Store) (q : List PyStr) (φ : Heap → Addr → Prop) : Prop :=
  ∃ depth, ∀ (w : World) (src : Source), w.content src = some S → RegInv P w.reg → ∀ (f : FileArg) (path : PyStr) (fn : NameArg), GivenAs w (ps "r") src q f path fn →
    ∀ order : List (PyStr × NodeId) → List (PyStr × NodeId), (∀ l, (order l).Perm l) → ∀ fuel, depth ≤ fuel →
      ∃ L b w', loadFile ⟨env, [], order, fuel⟩ f path fn {} w = (.ok (L, b), w') ∧ φ L b ∧ w'.content src = some S

variable {P : Nat → Prop}

theorem Loads.ways {env : Env} {S : Store} {q : List PyStr} {φ : Heap → Addr → Prop} (h : Loads P env S q φ) : LoadsWays P env S q φ := by
  classical
  obtain ⟨d, h⟩ := h
  refine ⟨d, fun w src hS hreg f path fn hway order hord fuel hfuel => ?_⟩
  obtain ⟨L, b, s', e1, e2, e3⟩ := h { store := S, writable := decide (Writes (ps "r") ∨ f.OpenForWriting), reg := w.reg } rfl rfl rfl hreg order hord fuel hfuel
  obtain ⟨k1, k2, _⟩ := hway.call (by decide) hS fun q => loadTop ⟨env, q, order, fuel⟩
  simp only [e1] at k1 k2
  rw [e3] at k2
  exact ⟨L, b, _, Prod.ext k1 rfl, e2, k2⟩

/-- **C68, round trip.**  What was dumped to the place `q` of a file given in one way is loaded from there given in any other: while the file is still open
for writing, or opened again, by name or through a file object. -/
theorem C68_round_trip {a : DumpArgs} {mode : PyStr} (hm : mode ∈ keepModes) (hw : Writes mode) {w w' : World} {src : Source} {q : List PyStr} {f : FileArg} {path : PyStr}
    {fn : NameArg} (h : GivenAs w mode src q f path fn) (hwo : WorldOk P w) (hE : EnvOk P a.env) (hP : ProtOk P a.env) (hg : GoodHeap P a.env a.heap)
    (hr : ∃ rk, Ranked a.heap rk) (ha : a.obj < a.heap.length) {S : Store} (hS : w.content src = some S) (ho : OptsOk { a with path := q } S)
    (hret : dumpFile a f mode path fn {} w = (.ok (), w')) :
    ∃ S', w'.content src = some S' ∧ LoadsWays P a.env S' q fun L b => Copy a.heap L b a.obj := by
  obtain ⟨k1, k2, _⟩ := h.call hm hS fun q => dumpTop { a with path := q }
  simp only [hw, true_or, decide_true] at k1 k2
  have e : (dumpFile a f mode path fn {} w).1 = .ok () := by rw [hret]
  have e' : (dumpFile a f mode path fn {} w).2 = w' := by rw [hret]
  unfold dumpFile at e e'
  rw [e'] at k2
  have hgd : GoodDump P { a with path := q } { store := S, writable := true, reg := w.reg } (dumpTop { a with path := q } { store := S, writable := true, reg := w.reg }).2 :=
    ⟨hE, hP, ⟨(hwo.files _ _ hS).1, hwo.reg, (hwo.files _ _ hS).2, rfl, fun _ => rfl⟩, hg, hr, ha, ho, Prod.ext (k1.symm.trans e) rfl⟩
  exact ⟨_, k2, (hgd.loads.imp fun _ _ h => h.1).ways⟩

/-- **C68, modes.**  For a file that is open for writing the mode plays no role: also `w` keeps what is in the file. -/
theorem C68_modes (a : DumpArgs) {g : GroupArg} (hg : g.readOnly = false) (mode mode' path : PyStr) (fn : NameArg) (flt : Faults) (w : World) :
    dumpFile a (.group g) mode path fn flt w = dumpFile a (.group g) mode' path fn flt w := by
  unfold dumpFile withFile
  simp only [fileOpener, hg, Bool.false_eq_true, if_false]

/-! ### a file with the object of `Ex` at `/run/a`: by name, open for writing and for reading, and through file objects -/

def C68.world (S : Store) : World :=
  { files := [(.name (ps "a.h5"), S), (.obj 7, S)],
    handles := [{ src := .name (ps "a.h5"), writable := true }, { src := .name (ps "a.h5"), writable := false }], reg := Registry.initial }

/-- `open('a.h5', 'r+b')` -/
def C68.obj : FObj := { id := 7, readable := some (.ok true), seekable := some (.ok true), write := some true }

theorem C68.ways (S : Store) {mode : PyStr} :
    GivenAs (C68.world S) mode (.name (ps "a.h5")) [ps "run", ps "a"] (.name (ps "a.h5")) (ps "run/a") .absent ∧
    GivenAs (C68.world S) mode (.name (ps "a.h5")) [ps "run", ps "a"] (.pathlib (ps "a.h5")) (ps "/run/a/") .absent ∧
    GivenAs (C68.world S) mode (.name (ps "a.h5")) [ps "run", ps "a"] (.group ⟨true, ps "/", 0, false⟩) (ps "run//a") .absent ∧
    GivenAs (C68.world S) mode (.name (ps "a.h5")) [ps "run", ps "a"] (.group ⟨true, ps "/run", 0, false⟩) (ps "a") .absent ∧
    GivenAs (C68.world S) (ps "r") (.name (ps "a.h5")) [ps "run", ps "a"] (.group ⟨true, ps "/run/a", 1, true⟩) (ps "/") .absent ∧
    GivenAs (C68.world S) mode (.obj 7) [ps "run", ps "a"] (.obj C68.obj) (ps "run/a") .text ∧
    GivenAs (C68.world S) mode (.obj 7) [ps "run", ps "a"] (.dict (some C68.obj) (some { id := 8 })) (ps "run/a") .absent := by
  have ha : C68.obj.Answers := ⟨by simp [C68.obj], by simp [C68.obj], by simp [C68.obj]⟩
  refine ⟨.name rfl (by decide), .pathlib rfl (by decide), .group (hd := { src := .name (ps "a.h5"), writable := true }) rfl rfl rfl rfl rfl rfl (fun _ => rfl) (by decide),
    .group (hd := { src := .name (ps "a.h5"), writable := true }) rfl rfl rfl rfl rfl rfl (fun _ => rfl) (by decide),
    .group (hd := { src := .name (ps "a.h5"), writable := false }) rfl rfl rfl rfl rfl rfl (fun h => absurd h (by decide)) (by decide),
    .object (.obj _ (by decide)) rfl ha (.inl rfl) (.inl rfl) (fun _ => .inr ⟨rfl, rfl⟩) rfl (by decide),
    .object (.dict _ _ rfl) rfl ha (.inl rfl) (.inl rfl) (fun _ => .inr ⟨rfl, rfl⟩) rfl (by decide)⟩

/-- dumping the object of `Ex` through an open file or a file object -/
example (S : Store) : (dumpFile Ex.dumpArgs (.group ⟨true, ps "/run", 0, false⟩) (ps "r+") (ps "a") .absent {} (C68.world S)).1 =
      (dumpFile Ex.dumpArgs (.obj C68.obj) (ps "r+") (ps "run/a") .text {} (C68.world S)).1 :=
  (C68_dump (by decide) (by decide) (C68.ways S).2.2.2.1 (C68.ways S).2.2.2.2.2.1 rfl rfl rfl).1

/-- loading it by name and through a file object that is in a dict -/
example (S : Store) (a : LoadArgs) : (loadFile a (.name (ps "a.h5")) (ps "run/a") .absent {} (C68.world S)).1 =
      (loadFile a (.dict (some C68.obj) (some { id := 8 })) (ps "run/a") .absent {} (C68.world S)).1 :=
  C68_load_partial (C68.ways S).1 (C68.ways S).2.2.2.2.2.2 (by simp [FileArg.OpenForWriting]) rfl rfl rfl

/-- loading it through the open file and by name -/
example : ∃ v, (loadFile ⟨Ex.env, [], id, 100⟩ (.group ⟨true, ps "/run", 0, false⟩) (ps "a") .absent {} (C68.world Ex.file1.store)).1 = .ok v ∧
    (loadFile ⟨Ex.env, [], id, 100⟩ (.name (ps "a.h5")) (ps "run/a") .absent {} (C68.world Ex.file1.store)).1 = .ok v := by
  have hret : Ex.isOk (loadFile ⟨Ex.env, [], id, 100⟩ (.group ⟨true, ps "/run", 0, false⟩) (ps "a") .absent {} (C68.world Ex.file1.store)).1 = true := by decide +kernel
  obtain ⟨v, hret⟩ := Ex.eq_of_isOk hret
  have hT : ∃ T, Ex.file1.store.resolve 0 ([ps "run", ps "a"] ++ [tableName]) = some T := Option.isSome_iff_exists.1 (by decide +kernel)
  obtain ⟨T, hT⟩ := hT
  have hv := congrArg Prod.fst hret
  exact ⟨v, hv, C68_load_reading_partial (C68.ways _).2.2.2.1 (C68.ways _).1 rfl rfl rfl hT rfl hv⟩

/-- a new file -/
example : ∃ w' S', dumpFile Ex.dumpArgs (.group ⟨true, ps "/run", 0, false⟩) (ps "r+") (ps "a") .absent {} (C68.world emptyStore) = (.ok (), w') ∧
    w'.content (.name (ps "a.h5")) = some S' ∧ LoadsWays (fun _ => True) Ex.env S' [ps "run", ps "a"] fun L b => Copy Ex.heap L b 11 := by
  have hret : Ex.isOk (dumpFile Ex.dumpArgs (.group ⟨true, ps "/run", 0, false⟩) (ps "r+") (ps "a") .absent {} (C68.world emptyStore)).1 = true := by decide +kernel
  obtain ⟨⟨⟩, hret⟩ := Ex.eq_of_isOk hret
  have hw : WorldOk (fun _ => True) (C68.world emptyStore) := by
    refine ⟨RegInv.initial, fun src S h => ?_, fun i hd h => ?_⟩
    · have := Assoc.get?_mem h
      simp [C68.world] at this
      rcases this with ⟨_, rfl⟩ | ⟨_, rfl⟩ <;> exact emptyStore_ok
    · have := List.mem_of_getElem? h
      simp [C68.world] at this
      rcases this with rfl | rfl <;> exact ⟨rfl, fun _ => rfl⟩
  have ho : OptsOk { Ex.dumpArgs with path := [ps "run", ps "a"] } emptyStore := by
    refine ⟨fun os h => by simp [Ex.dumpArgs] at h; subst h; decide, fun g at' h => ?_⟩
    have : emptyStore.resolve 0 [ps "run", ps "a"] = none := by decide
    simp only [this] at h; simp at h
  obtain ⟨S', h1, h2⟩ := C68_round_trip (by decide) (by decide) (C68.ways emptyStore).2.2.2.1 hw Ex.envOk Ex.protOk Ex.good.graph Ex.good.acyclic Ex.good.obj rfl ho hret
  exact ⟨_, S', hret, h1, h2⟩

/-- the file with the object of `Ex`, and an empty group that someone has made in the types table -/
def C68.damaged : Store :=
  match Ex.file1.store.resolve 0 [ps "run", ps "a", tableName] with
  | some T => match Ex.file1.store.create T (ps "note") (.group []) with
    | .ok (_, S) => S
    | .error _ => []
  | none => []

/-- **C68 is violated.**  Every entry of the types table is looked at, needed or not, when the file is open for writing, and none that is not needed when it
is open for reading: the same place of the same file is loaded by name, and not through an open file. -/
theorem C68_violated : ∃ (w : World) (S : Store) (src : Source) (q : List PyStr) (f1 f2 : FileArg) (path1 path2 : PyStr), GivenAs w (ps "r") src q f1 path1 .absent ∧
    GivenAs w (ps "r") src q f2 path2 .absent ∧ w.content src = some S ∧ Ex.isOk (loadFile ⟨Ex.env, [], id, 100⟩ f1 path1 .absent {} w).1 = true ∧
    Ex.raised (loadFile ⟨Ex.env, [], id, 100⟩ f2 path2 .absent {} w).1 = some .valueError :=
  ⟨C68.world C68.damaged, C68.damaged, _, _, _, _, _, _, (C68.ways _).1, (C68.ways _).2.2.2.1, rfl, by decide +kernel, by decide +kernel⟩

end Verif
