import Verif.Props.C18
import Verif.Props.C30
/-!
# C39 Files given by name: modes, round trip and other files

`WOp`: one call of `dump` or `load` with any file argument.  `WorldOk`: what holds of all files and handles between calls.
-/
namespace Verif

variable {P : Nat → Prop}

/-- one call, with the steps that fail in it -/
inductive WOp where
  | dump (a : DumpArgs) (f : FileArg) (mode path : PyStr) (fn : NameArg) (flt : Faults)
  | load (a : LoadArgs) (f : FileArg) (path : PyStr) (fn : NameArg) (flt : Faults)

def WOp.run : WOp → World → World
  | .dump a f mode path fn flt, w => (dumpFile a f mode path fn flt w).2
  | .load a f path fn flt, w => (loadFile a f path fn flt w).2

def runWOps : List WOp → World → World
  | [], w => w
  | o :: os, w => runWOps os (o.run w)

/-- the loader modules present during the call do not interfere with the classes in `P` -/
def WOp.ok (P : Nat → Prop) : WOp → Prop
  | .dump a .. => EnvOk P a.env ∧ ProtOk P a.env
  | .load a .. => EnvOk P a.env ∧ ProtOk P a.env

/-- what `file_opener` makes of the arguments -/
def WOp.opened : WOp → Except PyErr Opened
  | .dump _ f mode path fn _ => fileOpener f path mode fn
  | .load _ f path fn _ => fileOpener f path (ps "r") fn

/-- between calls: the links of every file form a tree, no file of hickle 3, and no manager was left behind in a writable file -/
structure WorldOk (P : Nat → Prop) (w : World) : Prop where
  reg : RegInv P w.reg
  files : ∀ src S, Assoc.get? w.files src = some S → Tree S ∧ NoV3 S
  handles : ∀ (i : Nat) (hd : Handle), w.handles[i]? = some hd → hd.ldr = false ∧ (hd.writable = true → hd.ref = false)

/-- the content of a file -/
def World.content (w : World) (src : Source) : Option Store := Assoc.get? w.files src

theorem emptyStore_ok : Tree emptyStore ∧ NoV3 emptyStore :=
  have h := newFile_ok (P := fun _ => False) (reg := Registry.initial) RegInv.initial
  ⟨h.tree, h.noV3⟩

/-- the call works on file `src` -/
def Opening.On (w : World) (src : Source) : Opening → Prop
  | .h5File s _ => s = src
  | .given g => ∃ hd : Handle, w.handles[g]? = some hd ∧ hd.src = src

/-- the file is opened such that what is in it is kept: only the mode `w` discards it -/
def Opening.Keeps : Opening → Prop
  | .h5File _ m => m ≠ ps "w"
  | .given _ => True

theorem h5Mode_w {m : PyStr} (h : h5Mode m = some .w) : m = ps "w" := by
  unfold h5Mode at h
  repeat' split at h
  all_goals first | assumption | simp at h

/-- a computation on an open file: what dump and load are known to do -/
def Mild (P : Nat → Prop) (q : List PyStr) (x : SM α) : Prop :=
  ∀ s, FileOk P s → FileOk P (x s).2 ∧ Chg q s.store (x s).2.store ∧ (x s).2.writable = s.writable

theorem mild_dump {a : DumpArgs} (hE : EnvOk P a.env) (hP : ProtOk P a.env) : Mild P a.path (dumpTop a) := by
  intro s hs
  have h := dumpTop_post (a := a) hE hP hs.reg
  exact ⟨(Op.chg (o := .dump a) ⟨hE, hP⟩ hs).1, h.chg, h.writable⟩

theorem mild_load {a : LoadArgs} (hE : EnvOk P a.env) (hP : ProtOk P a.env) : Mild P a.path (loadTop a) := by
  intro s hs
  obtain ⟨r', h, _⟩ := loadTop_post (a := a) hE hP hs.reg
  exact ⟨(Op.chg (o := .load a) ⟨hE, hP⟩ hs).1, h.chg, h.writable⟩

/-- what `onHandle` does to the world -/
theorem onHandle_post {α : Type} {q : List PyStr} {x : SM α} (hx : Mild P q x) {w : World} (hw : WorldOk P w) (h : Nat) :
    WorldOk P (onHandle h x w).2 ∧
    (∀ src, ¬ Opening.On w src (.given h) → (onHandle h x w).2.content src = w.content src) ∧
    (∀ src S, w.content src = some S → ∃ S', (onHandle h x w).2.content src = some S' ∧ Chg q S S') := by
  unfold onHandle
  cases hh : w.handles[h]? with
  | none => exact ⟨hw, fun _ _ => rfl, fun src S h => ⟨S, h, .refl⟩⟩
  | some hd =>
    simp only []
    cases hf : Assoc.get? w.files hd.src with
    | none => exact ⟨hw, fun _ _ => rfl, fun src S h => ⟨S, h, .refl⟩⟩
    | some S0 =>
      simp only []
      obtain ⟨t1, t2⟩ := hw.files _ _ hf
      obtain ⟨r1, r2⟩ := hw.handles _ _ hh
      obtain ⟨k, kc, kw⟩ := hx { store := S0, writable := hd.writable, ldr := hd.ldr, ref := hd.ref, reg := w.reg } ⟨t1, hw.reg, t2, r1, r2⟩
      refine ⟨⟨k.reg, fun src S hs => ?_, fun i hd' hi => ?_⟩, fun src hn => ?_, fun src S hs => ?_⟩
      · simp only at hs
        by_cases e : hd.src = src
        · subst e; rw [Assoc.get?_put_self] at hs; cases hs; exact ⟨k.tree, k.noV3⟩
        · rw [Assoc.get?_put_ne _ _ e] at hs; exact hw.files _ _ hs
      · simp only [List.getElem?_modify, Option.map_eq_map, Option.map_eq_some_iff] at hi
        obtain ⟨y, hy, rfl⟩ := hi
        by_cases e : h = i
        · subst e
          rw [hh] at hy; cases hy
          rw [if_pos rfl]
          exact ⟨k.ldr, fun hwr => k.ref (kw.trans hwr)⟩
        · rw [if_neg e]; exact hw.handles _ _ hy
      · unfold World.content; simp only
        rw [Assoc.get?_put_ne]
        intro e; exact hn ⟨hd, hh, e⟩
      · unfold World.content at hs ⊢; simp only
        by_cases e : hd.src = src
        · subst e; rw [hf] at hs; cases hs
          exact ⟨_, Assoc.get?_put_self _ _ _, kc⟩
        · rw [Assoc.get?_put_ne _ _ e]; exact ⟨S, hs, .refl⟩

theorem closing_files (h : Nat) (flag : Bool) (flt : Faults) (w : World) : (closing h flag flt w).2.files = w.files := by
  rw [closing_eq]
  cases flt.flush with
  | some e => rfl
  | none => cases flag <;> cases flt.close <;> rfl

theorem closing_reg (h : Nat) (flag : Bool) (flt : Faults) (w : World) : (closing h flag flt w).2.reg = w.reg := by
  rw [closing_eq]
  cases flt.flush with
  | some e => rfl
  | none => cases flag <;> cases flt.close <;> rfl

/-- … and `closing` -/
theorem closing_post (h : Nat) (flag : Bool) (flt : Faults) {w : World} (hw : WorldOk P w) :
    WorldOk P (closing h flag flt w).2 ∧ (closing h flag flt w).2.files = w.files := by
  rw [closing_eq]
  cases flt.flush with
  | some e => exact ⟨hw, rfl⟩
  | none =>
    cases flag with
    | false => exact ⟨⟨hw.reg, hw.files, hw.handles⟩, rfl⟩
    | true =>
      cases flt.close with
      | some e => exact ⟨⟨hw.reg, hw.files, hw.handles⟩, rfl⟩
      | none =>
        refine ⟨⟨hw.reg, hw.files, fun i hd hi => ?_⟩, rfl⟩
        simp only [if_true, List.getElem?_modify, Option.map_eq_map, Option.map_eq_some_iff] at hi
        obtain ⟨y, hy, rfl⟩ := hi
        have := hw.handles i y hy
        split
        · exact this
        · exact this

/-- … and `openWhat` -/
theorem openWhat_post {o : Opening} {flt : Faults} {w w1 : World} {h : Nat} (hw : WorldOk P w) (e : openWhat o flt w = (.ok h, w1)) :
    WorldOk P w1 ∧ (∀ src, ¬ o.On w src → w1.content src = w.content src) ∧ (∀ src, Opening.On w1 src (.given h) → o.On w src) ∧
    (o.Keeps → ∀ src S, w.content src = some S → w1.content src = some S) := by
  cases o with
  | given g => simp [openWhat] at e; obtain ⟨rfl, rfl⟩ := e; exact ⟨hw, fun _ _ => rfl, fun _ h => h, fun _ _ _ h => h⟩
  | h5File src mode =>
    simp only [openWhat, h5Open] at e
    cases hm : h5Mode mode with
    | none => rw [hm] at e; simp at e
    | some m =>
      rw [hm] at e; simp only [] at e
      cases hfl : flt.openF with
      | some x => rw [hfl] at e; simp at e
      | none =>
        rw [hfl] at e; simp only [] at e
        cases hc : h5Content (Assoc.get? w.files src) m with
        | error x => rw [hc] at e; simp at e
        | ok r =>
          obtain ⟨S, wr⟩ := r
          rw [hc] at e
          simp at e
          obtain ⟨rfl, rfl⟩ := e
          have hS : (Assoc.get? w.files src = some S ∨ S = emptyStore) ∧ (m ≠ .w → ∀ S', Assoc.get? w.files src = some S' → S = S') := by
            cases ho : Assoc.get? w.files src with
            | none => rw [ho] at hc; cases m <;> simp [h5Content] at hc <;> exact ⟨.inr hc.1.symm, fun _ _ h => by simp at h⟩
            | some S0 =>
              rw [ho] at hc
              cases m <;> simp [h5Content] at hc
              · exact ⟨.inl (by rw [hc.1]), fun _ _ h => by cases h; exact hc.1.symm⟩
              · exact ⟨.inl (by rw [hc.1]), fun _ _ h => by cases h; exact hc.1.symm⟩
              · exact ⟨.inr hc.1.symm, fun h => absurd rfl h⟩
              · exact ⟨.inl (by rw [hc.1]), fun _ _ h => by cases h; exact hc.1.symm⟩
          refine ⟨⟨hw.reg, fun s1 S1 h1 => ?_, fun i hd hi => ?_⟩, fun s1 h1 => ?_, fun s1 h1 => ?_, fun hk s1 S1 h1 => ?_⟩
          · simp only at h1
            by_cases e : src = s1
            · subst e; rw [Assoc.get?_put_self] at h1; cases h1
              rcases hS.1 with h | h
              · exact hw.files _ _ h
              · rw [h]; exact emptyStore_ok
            · rw [Assoc.get?_put_ne _ _ e] at h1; exact hw.files _ _ h1
          · simp only [List.getElem?_append] at hi
            split at hi
            · exact hw.handles _ _ hi
            · cases hk : i - w.handles.length with
              | zero => rw [hk] at hi; simp at hi; subst hi; exact ⟨rfl, fun _ => rfl⟩
              | succ n => rw [hk] at hi; simp at hi
          · unfold World.content; simp only
            exact Assoc.get?_put_ne _ _ h1
          · obtain ⟨hd, h2, h3⟩ := h1
            simp at h2; subst h2; exact h3
          · unfold World.content at h1 ⊢; simp only
            by_cases e : src = s1
            · subst e
              rw [Assoc.get?_put_self, hS.2 (fun h => hk (h5Mode_w (by rw [hm, h]))) S1 h1]
            · rw [Assoc.get?_put_ne _ _ e]; exact h1

theorem finally_state {σ α : Type} (x : M σ α) (fin : M σ Unit) (s : σ) : (finally' x fin s).2 = (fin (x s).2).2 := by
  rw [finally_eq]
  cases fin (x s).2 with
  | mk r s' => cases r <;> rfl

/-- what a call does to the files -/
theorem withFile_post {α : Type} {f : FileArg} {path mode : PyStr} {fn : NameArg} {flt : Faults} {x : List PyStr → SM α} (hx : ∀ q, Mild P q (x q)) {w : World}
    (hw : WorldOk P w) :
    let w' := (withFile f path mode fn flt (fun h p => onHandle h (x (comps p))) w).2
    WorldOk P w' ∧
    (∀ src, (∀ o, fileOpener f path mode fn = .ok o → ¬ o.what.On w src) → w'.content src = w.content src) ∧
    (∀ src S o, fileOpener f path mode fn = .ok o → o.what.Keeps → w.content src = some S → ∃ S', w'.content src = some S' ∧ Chg (comps o.path) S S') := by
  rcases withFile_cases f path mode fn flt (fun h p => onHandle h (x (comps p))) w with ⟨e, h⟩ | ⟨o, h, w1, h1, h2, h3⟩
  · intro w'
    have hw' : w' = w := by simp only [w', h]
    rw [hw']
    exact ⟨hw, fun _ _ => rfl, fun _ S _ _ _ h => ⟨S, h, .refl⟩⟩
  · intro w'
    have hw' : w' = (closing h o.closeFlag flt (onHandle h (x (comps o.path)) w1).2).2 := by simp only [w', h3]; exact finally_state _ _ _
    obtain ⟨a1, a2, a3, a4⟩ := openWhat_post hw h2
    obtain ⟨b1, b2, b3⟩ := onHandle_post (hx (comps o.path)) a1 h
    obtain ⟨c1, c2⟩ := closing_post h o.closeFlag flt b1
    rw [hw']
    refine ⟨c1, fun src hn => ?_, fun src S o' ho' hk hs => ?_⟩
    · unfold World.content; rw [c2]
      exact (b2 src fun hon => hn o h1 (a3 src hon)).trans (a2 src (hn o h1))
    · rw [h1] at ho'; cases ho'
      unfold World.content; rw [c2]
      exact b3 src S (a4 hk src S hs)

theorem WOp.post {o : WOp} (ho : o.ok P) {w : World} (hw : WorldOk P w) :
    WorldOk P (o.run w) ∧ (∀ src, (∀ p, o.opened = .ok p → ¬ p.what.On w src) → (o.run w).content src = w.content src) ∧
    (∀ src S p, o.opened = .ok p → p.what.Keeps → w.content src = some S → ∃ S', (o.run w).content src = some S' ∧ Chg (comps p.path) S S') := by
  cases o with
  | dump a f mode path fn flt => exact withFile_post (x := fun q => dumpTop { a with path := q }) (fun q => mild_dump (a := { a with path := q }) ho.1 ho.2) hw
  | load a f path fn flt => exact withFile_post (x := fun q => loadTop { a with path := q }) (fun q => mild_load (a := { a with path := q }) ho.1 ho.2) hw

theorem WorldOk.run {os : List WOp} (ho : ∀ o ∈ os, o.ok P) {w : World} (hw : WorldOk P w) : WorldOk P (runWOps os w) := by
  induction os generalizing w with
  | nil => exact hw
  | cons o os ih => exact ih (fun o' h => ho o' (by simp [h])) (WOp.post (ho o (by simp)) hw).1

/-- **C39, other files.**  A call of dump or load, with any arguments, returning or raising, with any faults, changes no file but
the one its file argument stands for; and none if the argument is refused. -/
theorem C39_others {o : WOp} (ho : o.ok P) {w : World} (hw : WorldOk P w) {src : Source} (h : ∀ p, o.opened = .ok p → ¬ p.what.On w src) :
    (o.run w).content src = w.content src := (WOp.post ho hw).2.1 src h

/-- **C39, loading.**  load with a name, a `Path` or a file object changes no file, whatever is in them and whatever fails. -/
theorem C39_load (a : LoadArgs) {f : FileArg} (path : PyStr) (fn : NameArg) (flt : Faults) (w : World) (hf : ∀ g, f ≠ .group g) (src : Source) :
    (loadFile a f path fn flt w).2.content src = w.content src := by
  unfold loadFile
  rcases withFile_cases f path (ps "r") fn flt (fun h p => onHandle h (loadTop { a with path := comps p })) w with ⟨e, h⟩ | ⟨o, h, w1, h1, h2, h3⟩
  · rw [h]
  · rw [h3, finally_state]
    have hm : ∃ s, o.what = .h5File s (ps "r") := by
      have hobj : ∀ (y : FObj) (p : PyStr), openObj y p (ps "r") = .ok o → ∃ s, o.what = .h5File s (ps "r") := by
        intro y p hy
        have hr : ps "r" = [114] := by decide
        have hn : noB [114] = [114] := by decide
        rw [hr] at hy ⊢
        simp only [openObj, hn, bind, Except.bind, pure, Except.pure, throw, throwThe, MonadExceptOf.throw] at hy
        repeat' split at hy
        all_goals first
          | (simp at hy; done)
          | (simp only [Except.ok.injEq] at hy; subst hy; exact ⟨_, rfl⟩)
      have hn : noB (ps "r") = ps "r" := by decide
      unfold fileOpener at h1
      rw [hn] at h1
      repeat' split at h1
      all_goals first
        | (simp at h1; done)
        | (exact absurd rfl (hf _))
        | (simp only [Except.ok.injEq] at h1; subst h1; exact ⟨_, rfl⟩)
        | exact hobj _ _ h1
    obtain ⟨s, hs⟩ := hm
    unfold World.content; rw [closing_files]
    rw [hs] at h2
    simp only [openWhat, h5Open, show h5Mode (ps "r") = some .r by decide] at h2
    cases hfl : flt.openF with
    | some x => rw [hfl] at h2; simp at h2
    | none =>
      rw [hfl] at h2; simp only [] at h2
      cases ho : Assoc.get? w.files s with
      | none => rw [ho] at h2; simp [h5Content] at h2
      | some S =>
        rw [ho] at h2; simp [h5Content] at h2
        obtain ⟨rfl, rfl⟩ := h2
        simp only [onHandle, List.getElem?_concat_length, Assoc.get?_put_self]
        rw [C30_readonly _ _ rfl]
        by_cases e : s = src
        · subst e; rw [Assoc.get?_put_self, ho]
        · rw [Assoc.get?_put_ne _ _ e, Assoc.get?_put_ne _ _ e]

/-- **C39, exclusive creation.**  Mode `x` (or `xb`, or `w-`) refuses an existing file, and changes nothing at all; a missing file is
refused in the same way by `r`, `r+` (and by load). -/
theorem C39_exclusive (a : DumpArgs) {f : FileArg} {n mode path : PyStr} {fn : NameArg} {w : World} (hf : f = .name n ∨ f = .pathlib n) :
    (∀ S, w.content (.name n) = some S → mode ∈ ["x", "xb", "w-"].map ps → dumpFile a f mode path fn {} w = (.error .osError, w)) ∧
    (w.content (.name n) = none → mode ∈ ["r", "rb", "r+", "rb+", "r+b"].map ps → dumpFile a f mode path fn {} w = (.error .osError, w)) ∧
    (w.content (.name n) = none → ∀ l : LoadArgs, loadFile l f path fn {} w = (.error .osError, w)) := by
  have hop : ∀ m, fileOpener f path m fn = .ok ⟨.h5File (.name n) (noB m), absPath path, true⟩ := by
    intro m; rcases hf with rfl | rfl <;> rfl
  refine ⟨fun S hS hm => ?_, fun hS hm => ?_, fun hS l => ?_⟩
  · have hx : h5Mode (noB mode) = some .x := by revert mode; decide
    unfold dumpFile withFile World.content at *
    rw [hop, M.bind_of_ok (show M.ofExcept _ w = (.ok _, w) from rfl), M.bind_of_error (e := .osError) (s1 := w)]
    simp [openWhat, h5Open, hx, h5Content, hS]
  · have hx : h5Mode (noB mode) = some .r ∨ h5Mode (noB mode) = some .rp := by revert mode; decide
    unfold dumpFile withFile World.content at *
    rw [hop, M.bind_of_ok (show M.ofExcept _ w = (.ok _, w) from rfl), M.bind_of_error (e := .osError) (s1 := w)]
    rcases hx with hx | hx <;> simp [openWhat, h5Open, hx, h5Content, hS]
  · have hx : h5Mode (noB (ps "r")) = some .r := by decide
    unfold loadFile withFile World.content at *
    rw [hop, M.bind_of_ok (show M.ofExcept _ w = (.ok _, w) from rfl), M.bind_of_error (e := .osError) (s1 := w)]
    simp [openWhat, h5Open, hx, h5Content, hS]

/-- a call on a file given by name whose file can be opened -/
theorem withFile_name {α : Type} (n path mode : PyStr) (fn : NameArg) (flt : Faults) (x : List PyStr → SM α) (w : World) {m : H5Mode} {S : Store} {wr : Bool}
    (hm : h5Mode (noB mode) = some m) (hc : h5Content (w.content (.name n)) m = .ok (S, wr)) (hf : flt.openF = none) :
    let r := x (comps path) { store := S, writable := wr, reg := w.reg }
    let c := withFile (.name n) path mode fn flt (fun h p => onHandle h (x (comps p))) w
    (flt.flush = none → flt.close = none → c.1 = r.1) ∧ (∀ v, c.1 = .ok v → r.1 = .ok v) ∧ c.2.content (.name n) = some r.2.store ∧ c.2.reg = r.2.reg := by
  intro r c
  have h1 : fileOpener (.name n) path mode fn = .ok ⟨.h5File (.name n) (noB mode), absPath path, true⟩ := rfl
  let w1 : World := { w with files := Assoc.put w.files (.name n) S, handles := w.handles ++ [{ src := .name n, writable := wr }] }
  have h2 : openWhat (.h5File (.name n) (noB mode)) flt w = (.ok w.handles.length, w1) := by
    unfold World.content at hc
    simp only [openWhat, h5Open, hm, hf, hc]; rfl
  have h3 : c = finally' (onHandle w.handles.length (x (comps (absPath path)))) (closing w.handles.length true flt) w1 := by
    simp only [c, withFile]
    rw [h1, M.bind_of_ok (show M.ofExcept _ w = (.ok _, w) from rfl), M.bind_of_ok h2]
  rw [comps_absPath] at h3
  have h4 : onHandle w.handles.length (x (comps path)) w1 = (r.1, { w1 with
        files := Assoc.put w1.files (.name n) r.2.store
        reg := r.2.reg
        handles := w1.handles.modify w.handles.length fun hd => { hd with ldr := r.2.ldr, ref := r.2.ref } }) := by
    simp only [onHandle, w1, List.getElem?_concat_length, Assoc.get?_put_self]; rfl
  refine ⟨fun f1 f2 => ?_, fun v hv => ?_, ?_, ?_⟩
  · rw [h3, finally_eq, h4, closing_eq, f1, f2]; rfl
  · rw [h3, finally_eq, h4, closing_eq] at hv
    cases f1 : flt.flush with
    | some e => rw [f1] at hv; simp at hv
    | none =>
      cases f2 : flt.close with
      | some e => rw [f1, f2] at hv; simp at hv
      | none => rw [f1, f2] at hv; exact hv
  · rw [h3, finally_state, h4]
    unfold World.content
    rw [closing_files]; exact Assoc.get?_put_self _ _ _
  · rw [h3, finally_state, h4, closing_reg]

/-- a call that returned on a file given by name did open it -/
theorem withFile_opened {α : Type} {n path mode : PyStr} {fn : NameArg} {flt : Faults} {body : Nat → PyStr → WM α} {w w' : World} {v : α}
    (h : withFile (.name n) path mode fn flt body w = (.ok v, w')) :
    ∃ m S wr, h5Mode (noB mode) = some m ∧ h5Content (w.content (.name n)) m = .ok (S, wr) ∧ flt.openF = none := by
  unfold withFile World.content at *
  rw [show fileOpener (.name n) path mode fn = .ok ⟨.h5File (.name n) (noB mode), absPath path, true⟩ from rfl,
    M.bind_of_ok (show M.ofExcept _ w = (.ok _, w) from rfl)] at h
  cases hm : h5Mode (noB mode) with
  | none => rw [M.bind_of_error (e := .valueError) (s1 := w) (by simp [openWhat, h5Open, hm])] at h; simp at h
  | some m =>
    cases hf : flt.openF with
    | some e => rw [M.bind_of_error (e := e) (s1 := w) (by simp [openWhat, h5Open, hm, hf])] at h; simp at h
    | none =>
      cases hc : h5Content (Assoc.get? w.files (.name n)) m with
      | error e => rw [M.bind_of_error (e := e) (s1 := w) (by simp [openWhat, h5Open, hm, hf, hc])] at h; simp at h
      | ok r => exact ⟨m, r.1, r.2, rfl, hc, rfl⟩

/-- In every later world in which file `n` has content `S`, loading `path` (or the same with other slashes) from the file named
`n` returns an object `b` of a heap `L` such that `φ L b`, in every order in which HDF5 lists members, provided the
interpreter allows enough recursion; all files are left as they are. -/
def LoadsName (P : Nat → Prop) (env : Env) (n : PyStr) (S : Store) (path : PyStr) (φ : Heap → Addr → Prop) : Prop :=
  ∃ depth, ∀ w : World, w.content (.name n) = some S → RegInv P w.reg → ∀ path' : PyStr, comps path' = comps path → ∀ fn,
    ∀ order : List (PyStr × NodeId) → List (PyStr × NodeId), (∀ l, (order l).Perm l) → ∀ fuel, depth ≤ fuel →
      ∃ L b w', loadFile ⟨env, [], order, fuel⟩ (.name n) path' fn {} w = (.ok (L, b), w') ∧ φ L b ∧ ∀ src, w'.content src = w.content src

theorem Loads.name {env : Env} {n : PyStr} {S : Store} {path : PyStr} {φ : Heap → Addr → Prop} (h : Loads P env S (comps path) φ) : LoadsName P env n S path φ := by
  obtain ⟨d, h⟩ := h
  refine ⟨d, fun w hw hreg path' hp fn order hord fuel hfuel => ?_⟩
  obtain ⟨L, b, s', e1, e2, e3⟩ := h { store := S, writable := false, reg := w.reg } rfl rfl rfl hreg order hord fuel hfuel
  have hk := withFile_name n path' (ps "r") fn {} (fun q => loadTop ⟨env, q, order, fuel⟩) w (m := .r) (S := S) (wr := false) (by decide) (by rw [hw]; rfl) rfl
  obtain ⟨k1, _, _, _⟩ := hk
  rw [hp, e1] at k1
  refine ⟨L, b, (loadFile ⟨env, [], order, fuel⟩ (.name n) path' fn {} w).2, ?_, e2, fun src => C39_load _ _ _ _ _ (by simp) src⟩
  have : (loadFile ⟨env, [], order, fuel⟩ (.name n) path' fn {} w).1 = .ok (L, b) := k1 rfl rfl
  rw [← this]

/-- content of the file named `n` right after it is opened with the given mode -/
def World.start (w : World) (n mode : PyStr) : Option Store :=
  match h5Mode (noB mode) with
  | none => none
  | some m => match h5Content (w.content (.name n)) m with
    | .ok (S, _) => some S
    | .error _ => none

/-- **C39, round trip.**  `dump(obj, name, mode, path)` returned, whatever was in the file: then in every world in which the file
has the content it has now, `load(name, path)` returns a copy. -/
theorem C39_round_trip {a : DumpArgs} {n mode path : PyStr} {fn : NameArg} {flt : Faults} {w w' : World} (hw : WorldOk P w)
    (hE : EnvOk P a.env) (hP : ProtOk P a.env) (hg : GoodHeap P a.env a.heap) (hr : ∃ rk, Ranked a.heap rk) (ha : a.obj < a.heap.length)
    (ho : ∀ S, w.start n mode = some S → OptsOk { a with path := comps path } S)
    (h : dumpFile a (.name n) mode path fn flt w = (.ok (), w')) :
    WorldOk P w' ∧ ∃ S, w'.content (.name n) = some S ∧ Stored a.env S (comps path) a.heap a.obj ∧
      LoadsName P a.env n S path fun L b => Copy a.heap L b a.obj := by
  obtain ⟨m, S, wr, hm, hc, hf⟩ := withFile_opened h
  have hS : Tree S ∧ NoV3 S := by
    cases ho : w.content (.name n) with
    | none => rw [ho] at hc; cases m <;> simp [h5Content] at hc <;> (rw [← hc.1]; exact emptyStore_ok)
    | some S0 =>
      have := hw.files _ _ ho
      rw [ho] at hc
      cases m <;> simp [h5Content] at hc <;> rw [← hc.1] <;> first | exact this | exact emptyStore_ok
  obtain ⟨_, k2, k3, _⟩ := withFile_name n path mode fn flt (fun q => dumpTop { a with path := q }) w hm hc hf
  have hret := k2 () (by unfold dumpFile at h; rw [h])
  have hgd : GoodDump P { a with path := comps path } { store := S, writable := wr, reg := w.reg } (dumpTop { a with path := comps path } { store := S, writable := wr, reg := w.reg }).2 :=
    ⟨hE, hP, ⟨hS.1, hw.reg, hS.2, rfl, fun _ => rfl⟩, hg, hr, ha, ho S (by simp only [World.start, hm, hc]), by rw [← hret]⟩
  have hw' : w' = (WOp.dump a (.name n) mode path fn flt).run w := by simp only [WOp.run, h]
  refine ⟨by rw [hw']; exact (WOp.post (o := .dump a (.name n) mode path fn flt) ⟨hE, hP⟩ hw).1, _, ?_, hgd.stored, Loads.name (hgd.loads.imp fun _ _ h => h.1)⟩
  rw [hw']; exact k3

/-- **C39, histories.**  After such a dump let any calls follow: dumps and loads with any file arguments, on this and other files,
returning or raising, with any faults.  Those that work on this file do not open it with a mode that discards its content, and
their paths do not lead into the two nodes the dump has made.  Then load still returns a copy. -/
theorem C39_history {a : DumpArgs} {n mode path : PyStr} {fn : NameArg} {flt : Faults} {w w' : World} (hw : WorldOk P w)
    (hE : EnvOk P a.env) (hP : ProtOk P a.env) (hg : GoodHeap P a.env a.heap) (hr : ∃ rk, Ranked a.heap rk) (ha : a.obj < a.heap.length)
    (ho : ∀ S, w.start n mode = some S → OptsOk { a with path := comps path } S)
    (h : dumpFile a (.name n) mode path fn flt w = (.ok (), w')) {ops : List WOp} (hok : ∀ o ∈ ops, o.ok P)
    (hops : ∀ o ∈ ops, ∀ p, o.opened = .ok p → (p.what.Keeps ∧ Avoids (comps path) (comps p.path)) ∨ ∃ s m, p.what = .h5File s m ∧ s ≠ .name n) :
    ∃ S, (runWOps ops w').content (.name n) = some S ∧ LoadsName P a.env n S path fun L b => Copy a.heap L b a.obj := by
  obtain ⟨h1, S, h2, h3, h4⟩ := C39_round_trip hw hE hP hg hr ha ho h
  clear h4
  clear h hw ho
  induction ops generalizing w' S with
  | nil => exact ⟨S, h2, Loads.name ((h3.loads hE hg hr ha (h1.files _ _ h2).2).imp fun _ _ h => h.1)⟩
  | cons o os ih =>
    obtain ⟨p1, p2, p3⟩ := WOp.post (hok o (by simp)) h1
    have hnext : ∃ S', (o.run w').content (.name n) = some S' ∧ Stored a.env S' (comps path) a.heap a.obj := by
      cases hp : o.opened with
      | error e => exact ⟨S, by rw [p2 _ (by rw [hp]; simp)]; exact h2, h3⟩
      | ok p =>
        rcases hops o (by simp) p hp with ⟨hk, hav⟩ | ⟨s, m, hs, hne⟩
        · obtain ⟨S', k1, k2⟩ := p3 _ S p hp hk h2
          exact ⟨S', k1, h3.keep (h1.files _ _ h2).1 k2 hav⟩
        · refine ⟨S, ?_, h3⟩
          rw [p2 _ (by rw [hp]; intro q hq; cases hq; rw [hs]; exact hne)]; exact h2
    obtain ⟨S', k1, k2⟩ := hnext
    exact ih (fun o' h => hok o' (by simp [h])) (fun o' h => hops o' (by simp [h])) p1 S' k1 k2

/-- **C39, truncation.**  With mode `w` (or `wb`) the outcome and the new content of the file do not depend on what was in it. -/
theorem C39_truncates {a : DumpArgs} {n mode path : PyStr} {fn : NameArg} {w1 w2 : World} (hm : mode ∈ ["w", "wb"].map ps) (hr : w1.reg = w2.reg) :
    (dumpFile a (.name n) mode path fn {} w1).1 = (dumpFile a (.name n) mode path fn {} w2).1 ∧
    (dumpFile a (.name n) mode path fn {} w1).2.content (.name n) = (dumpFile a (.name n) mode path fn {} w2).2.content (.name n) := by
  have hm' : h5Mode (noB mode) = some .w := by revert mode; decide
  obtain ⟨k1, _, k2, _⟩ := withFile_name n path mode fn {} (fun q => dumpTop { a with path := q }) w1 hm' (S := emptyStore) (wr := true) rfl rfl
  obtain ⟨j1, _, j2, _⟩ := withFile_name n path mode fn {} (fun q => dumpTop { a with path := q }) w2 hm' (S := emptyStore) (wr := true) rfl rfl
  unfold dumpFile
  rw [k1 rfl rfl, k2, j1 rfl rfl, j2, hr]
  exact ⟨rfl, rfl⟩

theorem Ex.world_ok : WorldOk (fun _ => True) Ex.world := by
  refine ⟨RegInv.initial, fun src S h => ?_, fun i hd h => ?_⟩
  · have := Assoc.get?_mem h
    simp [Ex.world] at this
    rcases this with ⟨_, rfl⟩ | ⟨_, rfl⟩ <;> exact emptyStore_ok
  · have := List.mem_of_getElem? h
    simp [Ex.world] at this
    subst this; exact ⟨rfl, fun _ => rfl⟩

/-- the object graph of `Ex` is dumped to `a.h5` -/
def Ex.named : WOp := .dump Ex.dumpArgs (.name (ps "a.h5")) (ps "w") (ps "run/a/") .absent {}

/-- … then a dump to the same place, which is refused, one to `/b` in the same file, one to another file given as an open
group, with mode `w`, one to `c.h5` that fails when the file is closed, and a load -/
def Ex.later : List WOp := [
  .dump Ex.dumpArgs (.pathlib (ps "a.h5")) (ps "r+") (ps "run/a") .absent {},
  .dump { Ex.dumpArgs with obj := 2 } (.name (ps "a.h5")) (ps "a") (ps "b") .absent {},
  .dump Ex.dumpArgs (.group ⟨true, ps "/", 0, false⟩) (ps "w") (ps "x") .absent {},
  .dump Ex.dumpArgs (.name (ps "c.h5")) (ps "w") (ps "/data") .absent { close := some .osError },
  .load ⟨Ex.env, [], id, 100⟩ (.name (ps "a.h5")) (ps "run/a") .absent {}]

example : ∃ S, (runWOps Ex.later (Ex.named.run Ex.world)).content (.name (ps "a.h5")) = some S ∧
    LoadsName (fun _ => True) Ex.env (ps "a.h5") S (ps "run/a/") fun L b => Copy Ex.heap L b 11 := by
  have hret : Ex.isOk (dumpFile Ex.dumpArgs (.name (ps "a.h5")) (ps "w") (ps "run/a/") .absent {} Ex.world).1 = true := by decide +kernel
  obtain ⟨⟨⟩, hret⟩ := Ex.eq_of_isOk hret
  have hstart : Ex.world.start (ps "a.h5") (ps "w") = some emptyStore := rfl
  refine C39_history Ex.world_ok Ex.envOk Ex.protOk Ex.good.graph Ex.good.acyclic Ex.good.obj ?_ hret ?_ ?_
  · intro S hS
    rw [hstart] at hS; cases hS
    refine ⟨fun os h => by simp [Ex.dumpArgs] at h; subst h; decide, fun g at' h => ?_⟩
    have : emptyStore.resolve 0 (comps (ps "run/a/")) = none := by decide
    simp only [this] at h; simp at h
  · intro o ho
    simp only [Ex.later, List.mem_cons, List.not_mem_nil, or_false] at ho
    rcases ho with rfl | rfl | rfl | rfl | rfl <;> exact ⟨Ex.envOk, Ex.protOk⟩
  · intro o ho p hp
    simp only [Ex.later, List.mem_cons, List.not_mem_nil, or_false] at ho
    unfold Avoids
    rcases ho with rfl | rfl | rfl | rfl | rfl <;> simp [WOp.opened, fileOpener] at hp <;> subst hp
    · exact .inl ⟨by unfold Opening.Keeps; decide, by decide⟩
    · exact .inl ⟨by unfold Opening.Keeps; decide, by decide⟩
    · exact .inl ⟨trivial, by decide⟩
    · exact .inr ⟨_, _, rfl, by decide⟩
    · exact .inl ⟨by unfold Opening.Keeps; decide, by decide⟩

end Verif
