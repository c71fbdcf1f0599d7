import Verif.Hickle.LoaderSearch
import Verif.Py.Hoare
import Verif.Props.C26
/-!
# C44 Loader modules are found where the documentation says, are run once, and can be missing

README.md:312-315, 354-357 and lookup.py:46-60: the loader module of a package or module `p` is `load_p.py` in `hickle/loaders` or in the
directory `hickle_loaders` beside the file of `p`.
-/
namespace Verif.Search

/-! ### the places -/

/-- the spec of a package: of the imported module, or of the one that would be imported -/
def specOf (w : World) (s : Proc) (p : Name) : Option Spec :=
  match Assoc.get? s.modules p with
  | some m => m.bind (·.spec)
  | none => w.finder p

def FileRes.found : FileRes → Option Code
  | .code c => some c
  | _ => none

/-- `.pyc` -/
def tPyc : Name := ['.', 'p', 'y', 'c']

/-- The places in which the loader module of package `p` is looked for, in this order: it is imported already; hickle/loaders; the
directory `hickle_loaders` beside the file of the package, there the source and then the compiled file. -/
def places (w : World) (s : Proc) (p : Name) : List (Option Code) :=
  let file (ext : Name) := (specOf w s p).bind fun sp =>
    if sp.hasLocation then
      (w.files (join (join (dirname sp.origin) tDir) (tLoad ++ p ++ ext))).found
    else none
  [(s.sys (loaderName p)).map fun m => .ok m.tables, w.own p, file tPy, file tPyc]

/-- nothing unusual: the module of the package has a spec, nobody has put `None` for the loader into `sys.modules`, and looking for a
file does not fail otherwise than with `FileNotFoundError` -/
structure Calm (w : World) (s : Proc) (p : Name) : Prop where
  spec : ∀ m, Assoc.get? s.modules p = some (some m) → m.spec ≠ none
  loader : Assoc.get? s.modules (loaderName p) ≠ some none
  files : ∀ sp, specOf w s p = some sp → sp.hasLocation = true → ∀ ext ∈ [tPy, tPyc], ∀ e,
    w.files (join (join (dirname sp.origin) tDir) (tLoad ++ p ++ ext)) ≠ .refused e

/-- outcome of the search for the tables of a loader module -/
def outcome : Option Code → Except PyErr (Option (Option LoaderMod))
  | none => .ok none
  | some (.error e) => .error e
  | some (.ok t) => .ok (some t)

theorem loaderFile_eq (f p : Name) : loaderFile f p ++ ['c'] = join (join (dirname f) tDir) (tLoad ++ p ++ tPyc) := by
  have h : ∀ ext : Name, isabs (tLoad ++ p ++ ext) = false := fun ext => rfl
  have e : tPyc = tPy ++ ['c'] := rfl
  unfold loaderFile
  generalize join (dirname f) tDir = d
  unfold join
  rw [h, h, e]
  simp only [Bool.false_eq_true, if_false]
  split <;> simp

theorem packageFile_calm {w : World} {s : Proc} {p : Name} (hc : Calm w s p) :
    packageFile w s p [] = .ok ((specOf w s p).bind fun sp => if sp.hasLocation then some sp.origin else none) := by
  unfold packageFile specOf Proc.sys findSpec
  simp only [ne_eq, not_true_eq_false, if_false]
  cases h : Assoc.get? s.modules p with
  | none => simp only [Option.join, Option.bind_none]; cases w.finder p <;> rfl
  | some m =>
    cases m with
    | none => simp
    | some m =>
      have := hc.spec m h
      cases hm : m.spec with
      | none => exact absurd hm this
      | some sp => simp [hm]

/-- what the search for the loader module `n` comes to -/
def found (w : World) (s : Proc) (n pkg : Name) (file : Option Name) : Except PyErr (Option Code) :=
  match s.sys (loaderName n) with
  | some m => .ok (some (.ok m.tables))
  | none => findCode w s n pkg file

theorem found_calm {w : World} {s : Proc} {p : Name} (hc : Calm w s p) : found w s p p (some []) = .ok ((places w s p).findSome? id) := by
  unfold found
  cases hs : s.sys (loaderName p) with
  | some m => simp [places, hs]
  | none =>
    have hl : (Assoc.get? s.modules (loaderName p)).isSome = false := by
      cases h : Assoc.get? s.modules (loaderName p) with
      | none => rfl
      | some m =>
        cases m with
        | none => exact absurd h hc.loader
        | some m => simp [Proc.sys, h] at hs
    unfold findCode places
    simp only [hl, Bool.false_eq_true, if_false, hs, Option.map_none, packageFile_calm hc]
    cases ho : w.own p with
    | some c => simp
    | none =>
      cases hsp : specOf w s p with
      | none => simp
      | some sp =>
        cases hh : sp.hasLocation with
        | false => simp [hh]
        | true =>
          have hf := hc.files sp hsp hh
          have f1 := hf tPy (by simp)
          have f2 := hf tPyc (by simp)
          simp only [Option.bind_some, hh, if_true, loaderFile_eq]
          have e1 : loaderFile sp.origin p = join (join (dirname sp.origin) tDir) (tLoad ++ p ++ tPy) := rfl
          rw [e1]
          cases h1 : w.files (join (join (dirname sp.origin) tDir) (tLoad ++ p ++ tPy)) with
          | refused e => exact absurd h1 (f1 e)
          | code c => simp [FileRes.found]
          | missing =>
            simp only [FileRes.found]
            cases h2 : w.files (join (join (dirname sp.origin) tDir) (tLoad ++ p ++ tPyc)) with
            | refused e => exact absurd h2 (f2 e)
            | code c => simp
            | missing => simp

/-- **C44, where loader modules are found.**  For a package other than `__main__` the first of the documented places counts; the
module found there is run unless it was imported before, and its exception, if any, is raised.  A package without loader module is
passed over. -/
theorem C44_places_partial {w : World} {s : Proc} {p : Name} (hc : Calm w s p) :
    (getModule w p p (some []) s).1 = outcome ((places w s p).findSome? id) := by
  have key := found_calm hc
  unfold found at key
  unfold getModule
  rw [M.bind_of_ok (M.get_apply s)]
  cases hs : s.sys (loaderName p) with
  | some m => simp [places, hs, outcome]
  | none =>
    rw [hs] at key
    simp only [] at key ⊢
    rw [key]
    cases (places w s p).findSome? id with
    | none => rfl
    | some c =>
      cases c with
      | error e => rfl
      | ok t => rfl

/-! ### every loader module is run once -/

theorem loaded_registerClass (a : RegArgs) (r : Registry) : (registerClass a r).2.loaded = r.loaded := by
  have hs : ∀ (r : Registry) o t, (r.setTables o t).loaded = r.loaded := by
    intro r o t; unfold Registry.setTables; repeat' split
    all_goals rfl
  unfold registerClass
  rw [M.bind_of_ok (M.get_apply r)]
  split
  · rfl
  · split
    · rfl
    · cases r.tables a.option with
      | none => simp only []; split <;> rfl
      | some t => exact hs _ _ _

theorem loaded_registerExclude (b : String) (o : Opt) (r : Registry) : (registerExclude b o r).2.loaded = r.loaded := by
  have hs : ∀ (r : Registry) o t, (r.setTables o t).loaded = r.loaded := by
    intro r o t; unfold Registry.setTables; repeat' split
    all_goals rfl
  unfold registerExclude
  rw [M.bind_of_ok (M.get_apply r)]
  split
  · rfl
  · split
    · rfl
    · cases r.tables o with
      | none => rfl
      | some t => exact hs _ _ _

theorem loaded_putDummy (m : Manager) (c : Cls) (e : Entry) (r : Registry) : (putDummy m c e r).2.loaded = r.loaded := by
  have hs : ∀ (r : Registry) o t, (r.setTables o t).loaded = r.loaded := by
    intro r o t; unfold Registry.setTables; repeat' split
    all_goals rfl
  unfold putDummy
  rw [M.bind_of_ok (M.get_apply r)]
  cases m.maps with
  | nil => rfl
  | cons o l =>
    simp only []
    cases r.tables o with
    | none => rfl
    | some t => exact hs _ _ _

theorem loaded_forEach {α : Type} {f : α → M Registry Unit} (hf : ∀ a r, (f a r).2.loaded = r.loaded) (l : List α) (r : Registry) : (M.forEach f l r).2.loaded = r.loaded := by
  induction l generalizing r with
  | nil => rfl
  | cons a l ih =>
    rw [M.forEach, M.bind_apply]
    have := hf a r
    rcases h : f a r with ⟨_ | u, r'⟩
    · rw [h] at this; exact this
    · rw [h] at this; simp only []; rw [ih]; exact this

/-- `runLoader` adds the name, at its very end -/
theorem loaded_runLoader (n : String) (lm : LoaderMod) (r : Registry) : (runLoader n lm r).2.loaded = r.loaded ∨ (runLoader n lm r).2.loaded = n :: r.loaded := by
  unfold runLoader
  rw [M.bind_apply]
  have h1 := loaded_forEach (f := registerClass) loaded_registerClass lm.register r
  rcases h : M.forEach registerClass lm.register r with ⟨_ | u, r1⟩
  · rw [h] at h1; exact .inl h1
  · rw [h] at h1
    simp only []
    rw [M.bind_apply]
    have h2 := loaded_forEach (f := fun (p : String × Opt) => registerExclude p.1 p.2) (fun p => loaded_registerExclude p.1 p.2) lm.exclude r1
    rcases h' : M.forEach (fun (p : String × Opt) => registerExclude p.1 p.2) lm.exclude r1 with ⟨_ | u, r2⟩
    · rw [h'] at h2; exact .inl (h2.trans h1)
    · rw [h'] at h2
      simp only [] at h2
      refine .inr ?_
      show n :: r2.loaded = _
      rw [h2, h1]

/-- loader modules run and registered so far -/
structure Once (s : Proc) : Prop where
  /-- no loader module was run twice -/
  execs : s.execs.Nodup
  there : ∀ n ∈ s.execs, (s.sys (loaderName n)).isSome
  /-- no loader module was registered twice -/
  loaded : s.reg.loaded.Nodup

theorem loaderName_inj {n n' : Name} (h : loaderName n = loaderName n') : n = n' := List.append_cancel_left h

theorem sys_put {s : Proc} {n n' : Name} {v : Option Mod} {l} : Proc.sys { s with modules := Assoc.put s.modules n v, execs := l } n' = if n = n' then v else s.sys n' := by
  unfold Proc.sys
  simp only [Assoc.get?_put]
  split <;> simp_all

theorem Once.resolve {w : World} {pkg : Name} {s : Proc} (h : Once s) : Once (resolve w pkg s).2 ∧ (Search.resolve w pkg s).2.reg = s.reg := by
  unfold Search.resolve
  rw [M.bind_of_ok (M.get_apply s)]
  cases Assoc.get? s.custom pkg with
  | none => exact ⟨h, rfl⟩
  | some y =>
    obtain ⟨n, f⟩ := y
    cases n with
    | some n => exact ⟨h, rfl⟩
    | none =>
      simp only []
      cases s.sys pkg with
      | none => exact ⟨h, rfl⟩
      | some m =>
        simp only []
        cases mainFile w s m with
        | error e => exact ⟨h, rfl⟩
        | ok o =>
          cases o with
          | none => exact ⟨h, rfl⟩
          | some f => exact ⟨⟨h.execs, h.there, h.loaded⟩, rfl⟩

theorem Once.getModule {w : World} {n pkg : Name} {file : Option Name} {s : Proc} (h : Once s) :
    Once (getModule w n pkg file s).2 ∧ (Search.getModule w n pkg file s).2.reg = s.reg := by
  unfold Search.getModule
  rw [M.bind_of_ok (M.get_apply s)]
  cases hs : s.sys (loaderName n) with
  | some m => exact ⟨h, rfl⟩
  | none =>
    simp only []
    cases findCode w s n pkg file with
    | error e => exact ⟨h, rfl⟩
    | ok c =>
      cases c with
      | none => exact ⟨h, rfl⟩
      | some c =>
        cases c with
        | error e => exact ⟨h, rfl⟩
        | ok t =>
          refine ⟨⟨List.nodup_cons.2 ⟨fun hn => ?_, h.execs⟩, ?_, h.loaded⟩, rfl⟩
          · have := h.there n hn; rw [hs] at this; cases this
          · intro n' hn'
            show (Proc.sys { s with modules := _, execs := n :: s.execs } _).isSome
            rw [sys_put]
            split
            · rfl
            · next hne =>
              rcases List.mem_cons.1 hn' with rfl | hn'
              · exact absurd rfl hne
              · exact h.there n' hn'

theorem Once.register {n : Name} {t : Option LoaderMod} {s : Proc} (h : Once s) (hn : s.loaded n = false) : Once (register n t s).2 := by
  cases t with
  | none => exact h
  | some lm =>
    refine ⟨h.execs, h.there, ?_⟩
    show (runLoader (String.ofList n) lm s.reg).2.loaded.Nodup
    rcases loaded_runLoader (String.ofList n) lm s.reg with e | e
    · rw [e]; exact h.loaded
    · rw [e]
      refine List.nodup_cons.2 ⟨fun hm => ?_, h.loaded⟩
      unfold Proc.loaded at hn
      simp [hm] at hn

theorem Once.lookupAux {w : World} {m : Manager} {c : Cls} {base : Option String} (ks : List Cls) : ∀ {s : Proc}, Once s → Once (lookupAux w m c base ks s).2 := by
  induction ks with
  | nil => exact fun h => h
  | cons k ks ih =>
    intro s h
    have tail : ∀ {n : Name} {pkg : Name} {file : Option Name} {s : Proc}, Once s → s.loaded n = false → Once ((do
        let t ← Search.getModule w n pkg file
        match t with
        | none => Search.lookupAux w m c base ks
        | some t => do
          Search.register n t
          let s' ← M.get
          match m.typeEntry s'.reg k with
          | some e => pure (c, e)
          | none => Search.lookupAux w m c base ks) s).2 := by
      intro n pkg file s h hn
      obtain ⟨h1, h2⟩ := h.getModule (w := w) (n := n) (pkg := pkg) (file := file)
      rw [M.bind_apply]
      rcases hg : Search.getModule w n pkg file s with ⟨_ | t, s1⟩
      · rw [hg] at h1; exact h1
      · rw [hg] at h1 h2
        simp only [] at h1 h2 ⊢
        cases t with
        | none => exact ih h1
        | some t =>
          have h3 := h1.register (n := n) (t := t) (by unfold Proc.loaded at hn ⊢; rw [h2]; exact hn)
          simp only []
          rw [M.bind_apply]
          rcases hr : Search.register n t s1 with ⟨_ | u, s2⟩
          · rw [hr] at h3; exact h3
          · rw [hr] at h3
            simp only []
            rw [M.bind_of_ok (M.get_apply s2)]
            cases m.typeEntry s2.reg k with
            | none => exact ih h3
            | some e => exact h3
    rw [Search.lookupAux, M.bind_of_ok (M.get_apply s)]
    cases m.typeEntry s.reg k with
    | some e => exact h
    | none =>
      simp only []
      cases homeOf (w.moduleOf k) with
      | bare => exact h
      | odd => exact ih h
      | core =>
        simp only []
        cases base with
        | none => exact h
        | some b => simp only []; split <;> exact h
      | dummy n =>
        simp only []
        rw [M.bind_of_ok (s1 := { s with reg := (putDummy m k ⟨.notDumpable, "NotHicklable", false⟩ s.reg).2 }) (a := ()) (by
          unfold Search.onReg putDummy
          rw [M.bind_of_ok (M.get_apply s.reg)]
          cases m.maps with
          | nil => rfl
          | cons o l => simp only []; cases s.reg.tables o <;> rfl)]
        have h' : Once { s with reg := (putDummy m k ⟨.notDumpable, "NotHicklable", false⟩ s.reg).2 } := ⟨h.execs, h.there, by
          show ((putDummy m k _ s.reg).2.loaded).Nodup
          rw [loaded_putDummy]; exact h.loaded⟩
        cases hn : s.loaded n with
        | true => exact h'
        | false =>
          simp only [Bool.false_eq_true, if_false]
          refine tail h' ?_
          unfold Proc.loaded at hn ⊢
          rw [loaded_putDummy]
          exact hn
      | pkg p =>
        simp only []
        obtain ⟨h1, h2⟩ := h.resolve (w := w) (pkg := p)
        rw [M.bind_apply]
        rcases hr : Search.resolve w p s with ⟨_ | r, s1⟩
        · rw [hr] at h1; exact h1
        · rw [hr] at h1 h2
          simp only [] at h1 h2 ⊢
          cases r with
          | none => exact ih h1
          | some r =>
            obtain ⟨n, p', f⟩ := r
            simp only []
            cases hn : s.loaded n with
            | true => exact ih h1
            | false =>
              simp only [Bool.false_eq_true, if_false]
              refine tail h1 ?_
              unfold Proc.loaded at hn ⊢
              rw [h2]
              exact hn

/-- what happens in a process: lookups, for any class and options, and imports of modules by other code -/
inductive Life (w : World) : Proc → Prop
  | start (modules : List (Name × Option Mod)) : Life w { modules := modules }
  | lookup {s : Proc} (m : Manager) (c : Cls) (mro : List Cls) (base : Option String) : Life w s → Life w (Search.lookup w m c mro base s).2
  | import {s : Proc} (n : Name) (md : Mod) : Life w s → Life w { s with modules := Assoc.put s.modules n (some md) }

/-- **C44, once.**  In the whole life of a process no loader module is run to its end twice and none is registered twice, whatever
classes are looked up, with whatever managers, and whether or not lookups fail. -/
theorem C44_once {w : World} {s : Proc} (h : Life w s) : s.execs.Nodup ∧ s.reg.loaded.Nodup := by
  have : Once s := by
    induction h with
    | start l => exact ⟨.nil, by simp, (by decide +kernel : Registry.initial.loaded.Nodup)⟩
    | lookup m c mro base _ ih => exact Once.lookupAux mro ih
    | «import» n md _ ih =>
      refine ⟨ih.execs, fun n' hn' => ?_, ih.loaded⟩
      have := ih.there n' hn'
      unfold Proc.sys at this ⊢
      simp only [Assoc.get?_put]
      split
      · rfl
      · exact this
  exact ⟨this.execs, this.loaded⟩

/-! ### the search and the tables of loader modules of the main model -/

/-- the model of `Registry.lean` knows where every class is defined … -/
def Fits (w : World) (env : Env) : Prop := ∀ k : Cls,
  match homeOf (w.moduleOf k), k.origin env.u with
  | .pkg p, .pkg q => String.ofList p = q
  | .dummy n, .dummy l => String.ofList n = l
  | .core, .core => True
  | _, _ => False

/-- … and which loader module is found for each package that is not yet done with -/
structure Settled (w : World) (env : Env) (s : Proc) : Prop where
  pkg : ∀ k p, homeOf (w.moduleOf k) = .pkg p → Assoc.get? s.custom p = none ∧
    (s.loaded p = false → found w s p p (some []) = .ok ((env.loaderMod (String.ofList p)).map fun lm => .ok (some lm)))
  dummy : ∀ k n, homeOf (w.moduleOf k) = .dummy n → (s.loaded n = false → ∃ lm, env.loaderMod (String.ofList n) = some lm ∧
    found w s n n none = .ok (some (.ok (some lm))))

theorem homeOf_nodot {mn p : Name} (h : homeOf mn = .pkg p) : '.' ∉ p := by
  have hd : ∀ l : Name, '.' ∉ l.takeWhile (· ≠ '.') := by
    intro l
    induction l with
    | nil => simp
    | cons a l ih =>
      rw [List.takeWhile_cons]
      split
      · next ha =>
        intro hm
        rcases List.mem_cons.1 hm with rfl | hm
        · simp at ha
        · exact ih hm
      · simp
  have hs : ∀ q rest, splitMax 2 mn = q :: rest → '.' ∉ q := by
    intro q rest hq
    unfold splitMax at hq
    split at hq
    · next hdrop =>
      simp only [List.cons.injEq] at hq
      obtain ⟨rfl, _⟩ := hq
      intro hm
      have : ∀ l : Name, '.' ∈ l → l.dropWhile (· ≠ '.') ≠ [] := by
        intro l
        induction l with
        | nil => simp
        | cons a l ih =>
          intro hm
          rw [List.dropWhile_cons]
          split
          · next ha =>
            rcases List.mem_cons.1 hm with rfl | hm
            · simp at ha
            · exact ih hm
          · simp
      exact this _ hm hdrop
    · simp only [List.cons.injEq] at hq
      rw [← hq.1]
      exact hd mn
  unfold homeOf at h
  split at h
  · next q rest hq =>
    have := hs q rest hq
    split at h
    · split at h
      · cases h
      · split at h
        · cases h
        · split at h
          · cases h
          · split at h <;> cases h
    · cases h; exact this
  · cases h

theorem nodot_ne {p n : Name} (h : '.' ∉ p) : loaderName n ≠ p := by
  rintro rfl
  exact h (by simp [loaderName, tPrefix])

/-- after the module `n` was run the others are found as before -/
theorem found_put {w : World} {s : Proc} {n n' pkg : Name} {file : Option Name} {v : Mod} {l : List Name} (hn : n ≠ n') (hp : file ≠ none → '.' ∉ pkg) :
    found w { s with modules := Assoc.put s.modules (loaderName n) (some v), execs := l } n' pkg file = found w s n' pkg file := by
  have hne : loaderName n ≠ loaderName n' := fun h => hn (loaderName_inj h)
  unfold found
  rw [sys_put, if_neg hne]
  cases s.sys (loaderName n') with
  | some m => rfl
  | none =>
    simp only []
    unfold findCode
    simp only [Assoc.get?_put_ne _ _ hne]
    cases (if (Assoc.get? s.modules (loaderName n')).isSome = true then none else w.own n') with
    | some c => rfl
    | none =>
      cases file with
      | none => rfl
      | some f =>
        have hne' : loaderName n ≠ pkg := nodot_ne (hp (by simp))
        have e : packageFile w { s with modules := Assoc.put s.modules (loaderName n) (some v), execs := l } pkg f = packageFile w s pkg f := by
          unfold packageFile findSpec
          rw [sys_put, if_neg hne']
          simp only [Assoc.get?_put_ne _ _ hne']
        simp only [e]

theorem found_self {w : World} {s : Proc} {n pkg : Name} {file : Option Name} {t : Option LoaderMod} {l : List Name} :
    found w { s with modules := Assoc.put s.modules (loaderName n) (some { tables := t }), execs := l } n pkg file = .ok (some (.ok t)) := by
  unfold found
  rw [sys_put, if_pos rfl]

/-- fetching a module that is found -/
theorem getModule_found {w : World} {s : Proc} {n pkg : Name} {file : Option Name} :
    (∀ t, found w s n pkg file = .ok (some (.ok t)) → ∃ s', getModule w n pkg file s = (.ok (some t), s') ∧ s'.reg = s.reg ∧ s'.custom = s.custom ∧
      (s' = s ∨ s' = { s with modules := Assoc.put s.modules (loaderName n) (some { tables := t }), execs := n :: s.execs })) ∧
    (found w s n pkg file = .ok none → getModule w n pkg file s = (.ok none, s)) := by
  unfold found getModule
  rw [M.bind_of_ok (M.get_apply s)]
  cases s.sys (loaderName n) with
  | some m =>
    refine ⟨fun t h => ⟨s, ?_, rfl, rfl, .inl rfl⟩, fun h => ?_⟩
    · simp only [Except.ok.injEq, Option.some.injEq] at h; rw [← h]; rfl
    · simp at h
  | none =>
    refine ⟨fun t h => ?_, fun h => ?_⟩
    · simp only [] at h ⊢
      rw [h]
      exact ⟨_, rfl, rfl, rfl, .inr rfl⟩
    · simp only [] at h ⊢
      rw [h]
      rfl

theorem Settled.put {w : World} {env : Env} {s : Proc} {n : Name} {lm : LoaderMod} (h : Settled w env s) (hf : env.loaderMod (String.ofList n) = some lm) :
    Settled w env { s with modules := Assoc.put s.modules (loaderName n) (some { tables := some lm }), execs := n :: s.execs } := by
  refine ⟨fun k p hk => ⟨(h.pkg k p hk).1, fun hl => ?_⟩, fun k p hk hl => ?_⟩
  · by_cases hn : n = p
    · subst hn
      rw [hf]
      exact found_self
    · rw [found_put hn fun _ => homeOf_nodot hk]
      exact (h.pkg k p hk).2 hl
  · by_cases hn : n = p
    · subst hn
      exact ⟨lm, hf, found_self⟩
    · obtain ⟨lm, h1, h2⟩ := h.dummy k p hk hl
      exact ⟨lm, h1, by rw [found_put hn (by simp)]; exact h2⟩

/-- more loader modules are registered -/
theorem Settled.reg {w : World} {env : Env} {s : Proc} {r : Registry} (h : Settled w env s) (hr : ∀ n, s.reg.loaded.contains n = true → r.loaded.contains n = true) :
    Settled w env { s with reg := r } := by
  have key : ∀ n, Proc.loaded { s with reg := r } n = false → s.loaded n = false := by
    intro n hn
    unfold Proc.loaded at hn ⊢
    cases hc : s.reg.loaded.contains (String.ofList n) with
    | false => rfl
    | true => have := hr _ hc; simp only [] at hn; rw [this] at hn; cases hn
  exact ⟨fun k p hk => ⟨(h.pkg k p hk).1, fun hl => (h.pkg k p hk).2 (key p hl)⟩, fun k n hk hl => h.dummy k n hk (key n hl)⟩

/-- the last steps of both loops: a module is at hand, it is registered and the class is looked up again -/
theorem refines_tail {w : World} {env : Env} {m : Manager} {c k : Cls} {s : Proc} {n pkg : Name} {file : Option Name} {lm : LoaderMod}
    {X : PM (Cls × Entry)} {Y : M Registry (Cls × Entry)}
    (hS : Settled w env s) (hlm : env.loaderMod (String.ofList n) = some lm) (hf : found w s n pkg file = .ok (some (.ok (some lm))))
    (hXY : ∀ s, Settled w env s → (X s).1 = (Y s.reg).1 ∧ (X s).2.reg = (Y s.reg).2 ∧ Settled w env (X s).2) :
    let x := (do
      let t ← getModule w n pkg file
      match t with
      | none => X
      | some t => do
        register n t
        let s' ← M.get
        match m.typeEntry s'.reg k with
        | some e => pure (c, e)
        | none => X : PM (Cls × Entry)) s
    let y := (do
      runLoader (String.ofList n) lm
      let r' ← M.get
      match m.typeEntry r' k with
      | some e => pure (c, e)
      | none => Y : M Registry (Cls × Entry)) s.reg
    x.1 = y.1 ∧ x.2.reg = y.2 ∧ Settled w env x.2 := by
  obtain ⟨s', h1, h2, h3, h4⟩ := getModule_found.1 _ hf
  have hS' : Settled w env s' := by
    rcases h4 with rfl | rfl
    · exact hS
    · exact hS.put hlm
  simp only []
  rw [M.bind_of_ok h1]
  simp only []
  rw [M.bind_apply, M.bind_apply]
  have hreg : Settled w env { s' with reg := (runLoader (String.ofList n) lm s.reg).2 } := by
    refine hS'.reg fun q hq => ?_
    rw [h2] at hq
    rcases loaded_runLoader (String.ofList n) lm s.reg with e | e
    · rw [e]; exact hq
    · rw [e]; simp at hq ⊢; exact .inr hq
  have e1 : register n (some lm) s' = ((runLoader (String.ofList n) lm s.reg).1, { s' with reg := (runLoader (String.ofList n) lm s.reg).2 }) := by
    unfold register onReg
    simp only [h2]
  rw [e1]
  generalize runLoader (String.ofList n) lm s.reg = x at hreg
  obtain ⟨_ | u, r⟩ := x
  · exact ⟨rfl, rfl, hreg⟩
  · simp only [] at hreg ⊢
    rw [M.bind_of_ok (M.get_apply _), M.bind_of_ok (M.get_apply _)]
    simp only []
    cases m.typeEntry r k with
    | some e => exact ⟨rfl, rfl, hreg⟩
    | none => exact hXY _ hreg

/-- **C44, the search agrees with the tables of the main model.**  All other theorems speak of loader modules as a table from package
names.  In a settled process the search has the same outcome, and leaves the same registry; and the process stays settled.
*Missing*: classes defined in the main script (`C44_violated_main`). -/
theorem C44_refines_partial {w : World} {env : Env} {s : Proc} (hF : Fits w env) (hS : Settled w env s) (m : Manager) (c : Cls) (base : Option String) :
    (lookup w m c (c.mro env.u) base s).1 = (loadLoader env m c base s.reg).1 ∧ (lookup w m c (c.mro env.u) base s).2.reg = (loadLoader env m c base s.reg).2 ∧
    Settled w env (lookup w m c (c.mro env.u) base s).2 := by
  unfold lookup loadLoader
  generalize c.mro env.u = ks
  induction ks generalizing s with
  | nil => exact ⟨rfl, rfl, hS⟩
  | cons k ks ih =>
    rw [lookupAux, loadLoaderAux, M.bind_of_ok (M.get_apply s), M.bind_of_ok (M.get_apply s.reg)]
    cases m.typeEntry s.reg k with
    | some e => exact ⟨rfl, rfl, hS⟩
    | none =>
      have hk := hF k
      cases hh : homeOf (w.moduleOf k) with
      | bare => rw [hh] at hk; simp at hk
      | odd => rw [hh] at hk; simp at hk
      | core =>
        rw [hh] at hk
        cases ho : k.origin env.u with
        | pkg q => rw [ho] at hk; simp at hk
        | dummy q => rw [ho] at hk; simp at hk
        | core =>
          simp only []
          cases base with
          | none => exact ⟨rfl, rfl, hS⟩
          | some b => simp only []; split <;> exact ⟨rfl, rfl, hS⟩
      | dummy n =>
        rw [hh] at hk
        cases ho : k.origin env.u with
        | pkg q => rw [ho] at hk; simp at hk
        | core => rw [ho] at hk; simp at hk
        | dummy q =>
          rw [ho] at hk
          simp only [] at hk
          subst hk
          simp only []
          have e1 : putDummy m k ⟨.notDumpable, "NotHicklable", false⟩ s.reg = (.ok (), (putDummy m k ⟨.notDumpable, "NotHicklable", false⟩ s.reg).2) := by
            unfold putDummy
            rw [M.bind_of_ok (M.get_apply s.reg)]
            cases m.maps with
            | nil => rfl
            | cons o l => simp only []; cases s.reg.tables o <;> rfl
          have hl := loaded_putDummy m k ⟨.notDumpable, "NotHicklable", false⟩ s.reg
          generalize (putDummy m k ⟨.notDumpable, "NotHicklable", false⟩ s.reg).2 = r at e1 hl
          rw [M.bind_of_ok (s1 := { s with reg := r }) (a := ()) (by unfold onReg; rw [e1]), M.bind_of_ok e1]
          have hS' : Settled w env { s with reg := r } := hS.reg fun q hq => by rw [hl]; exact hq
          have e2 : s.loaded n = s.reg.loaded.contains (String.ofList n) := rfl
          rw [e2]
          cases hn : s.reg.loaded.contains (String.ofList n) with
          | true => exact ⟨rfl, rfl, hS'⟩
          | false =>
            simp only [Bool.false_eq_true, if_false]
            obtain ⟨lm, h1, h2⟩ := hS.dummy k n hh hn
            rw [h1]
            exact refines_tail hS' h1 h2 (fun s h => ih h)
      | pkg p =>
        rw [hh] at hk
        cases ho : k.origin env.u with
        | core => rw [ho] at hk; simp at hk
        | dummy q => rw [ho] at hk; simp at hk
        | pkg q =>
          rw [ho] at hk
          simp only [] at hk
          subst hk
          simp only []
          obtain ⟨h1, h2⟩ := hS.pkg k p hh
          have e1 : resolve w p s = (.ok (some (p, p, [])), s) := by
            unfold resolve
            rw [M.bind_of_ok (M.get_apply s), h1]
            rfl
          rw [M.bind_of_ok e1]
          have e2 : s.loaded p = s.reg.loaded.contains (String.ofList p) := rfl
          simp only [e2]
          cases hn : s.reg.loaded.contains (String.ofList p) with
          | true => simp only [if_true]; exact ih hS
          | false =>
            simp only [Bool.false_eq_true, if_false]
            have hf := h2 hn
            cases hlm : env.loaderMod (String.ofList p) with
            | none =>
              rw [hlm] at hf
              rw [M.bind_of_ok (getModule_found.2 hf)]
              exact ih hS
            | some lm =>
              rw [hlm] at hf
              exact refines_tail hS hlm hf (fun s h => ih h)

/-- a process is settled when nothing unusual is about, every documented place holds what the main model's table says, and no class
is defined in the main script or in a loader module -/
theorem Settled.of_calm {w : World} {env : Env} {s : Proc}
    (h : ∀ k, ∃ p, (homeOf (w.moduleOf k) = .pkg p ∧ Assoc.get? s.custom p = none ∧ Calm w s p ∧
      (places w s p).findSome? id = (env.loaderMod (String.ofList p)).map fun lm => .ok (some lm)) ∨ homeOf (w.moduleOf k) = .core) : Settled w env s := by
  constructor
  · intro k p hk
    obtain ⟨p', ⟨h1, h2, h3, h4⟩ | h1⟩ := h k
    · rw [hk] at h1
      cases h1
      exact ⟨h2, fun _ => by rw [found_calm h3, h4]⟩
    · rw [hk] at h1; cases h1
  · intro k n hk
    obtain ⟨p', ⟨h1, _⟩ | h1⟩ := h k <;> rw [hk] at h1 <;> cases h1

/-! ### the main script -/

/-- **C44, main script.**  The first time a class of the main script is looked up, its loader module is looked for where the
documentation says: `load_` and the name of the script, in the directory `hickle_loaders` beside it.  *Missing*: later lookups look
elsewhere. -/
theorem C44_main_partial {w : World} {s : Proc} {m : Mod} {f : Name} (h1 : Assoc.get? s.custom tMain = some (none, [])) (h2 : s.sys tMain = some m)
    (h3 : m.file = some f) (h4 : isabs f = true) :
    let n := beforeDot (basename f)
    ∃ s1, resolve w tMain s = (.ok (some (n, n, f)), s1) ∧ s1.modules = s.modules ∧
      (Assoc.get? s.modules (loaderName n) = none → w.own n = none → ∀ c, w.files (join (join (dirname f) tDir) (tLoad ++ n ++ tPy)) = .code c →
        (getModule w n n (some f) s1).1 = outcome (some c)) := by
  intro n
  have e : mainFile w s m = .ok (some f) := by unfold mainFile; simp [h3, h4]
  refine ⟨{ s with custom := Assoc.put s.custom tMain (some n, f) }, ?_, rfl, fun g1 g2 c g3 => ?_⟩
  · unfold resolve
    rw [M.bind_of_ok (M.get_apply s), h1]
    simp only [h2, e]
    rfl
  · have hf : f ≠ [] := by rintro rfl; simp [isabs] at h4
    have hc : findCode w { s with custom := Assoc.put s.custom tMain (some n, f) } n n (some f) = .ok (some c) := by
      unfold findCode packageFile
      simp only [g1, g2, Option.isSome_none, Bool.false_eq_true, if_false, ne_eq, hf, not_false_eq_true, if_true]
      have : loaderFile f n = join (join (dirname f) tDir) (tLoad ++ n ++ tPy) := rfl
      rw [this, g3]
    unfold getModule
    rw [M.bind_of_ok (M.get_apply _)]
    have hs : Proc.sys { s with custom := Assoc.put s.custom tMain (some n, f) } (loaderName n) = none := by unfold Proc.sys; simp [g1]
    simp only [hs, hc]
    cases c <;> rfl

/-! ### examples and violations -/

namespace Ex

def shapes : Name := ['s', 'h', 'a', 'p', 'e', 's']
def builtins : Name := ['b', 'u', 'i', 'l', 't', 'i', 'n', 's']

def numpy : Name := ['n', 'u', 'm', 'p', 'y']
def scipy : Name := ['s', 'c', 'i', 'p', 'y']

/-- classes of the user are in `pkg`; hickle has its own loaders for `builtins`, `numpy` and `scipy` -/
def world (pkg : Name) (files : Name → FileRes) : World where
  moduleOf := fun c => match c with
    | .user _ => pkg
    | .nodeRef | .recover | .recGroup | .recData => ['h', 'i', 'c', 'k', 'l', 'e', '.', 'l', 'o', 'o', 'k', 'u', 'p']
    | .npGeneric | .npNumber | .npBool | .npInt64 | .npFloat64 | .npComplex128 | .ndarray | .matrix | .masked => numpy
    | .csr | .csc | .bsr => scipy ++ ['.', 's', 'p', 'a', 'r', 's', 'e']
    | _ => builtins
  finder := fun _ => none
  own := fun n => if n = builtins then some (.ok (some loadBuiltins)) else if n = numpy then some (.ok (some loadNumpy))
    else if n = scipy then some (.ok (some loadScipy)) else none
  files := files

/-- a loader module with a loader for the user's first class -/
def mod : LoaderMod := ⟨[{ cls := .user 0, base := "point", dump := some (.custom 7) }], []⟩

def proc (pkg : Name) (m : Mod) : Proc := { modules := [(pkg, some m), (builtins, some { spec := some ⟨false, []⟩ })] }

/-- `/lib/shapes/__init__.py` -/
def shapesFile : Name := "/lib/shapes/__init__.py".toList
def shapesProc : Proc := proc shapes { spec := some ⟨true, shapesFile⟩ }
def shapesWorld : World := world shapes fun f => if f = "/lib/shapes/hickle_loaders/load_shapes.pyc".toList then .code (.ok (some mod)) else .missing

/-- the manager of a plain dump -/
def mgr : Manager := ⟨[none]⟩

/-- two lookups for an object of the user's first class -/
def twice (w : World) (s : Proc) : Except PyErr (Cls × Entry) × Except PyErr (Cls × Entry) :=
  let x := lookup w mgr (.user 0) [.user 0, .object] none s
  (x.1, (lookup w mgr (.user 0) [.user 0, .object] none x.2).1)

end Ex

theorem shapes_calm {p : Name} (hp : p = Ex.shapes ∨ p = Ex.builtins ∨ p = Ex.numpy ∨ p = Ex.scipy) : Calm Ex.shapesWorld Ex.shapesProc p := by
  refine ⟨?_, ?_, ?_⟩
  · intro m hm
    have : ∀ e ∈ Ex.shapesProc.modules, ∀ m, e.2 = some m → m.spec ≠ none := by
      intro e he m hm
      simp only [Ex.shapesProc, Ex.proc, List.mem_cons, List.not_mem_nil, or_false] at he
      rcases he with rfl | rfl <;> (simp only [Option.some.injEq] at hm; subst hm; simp)
    exact this _ (Assoc.get?_mem hm) m rfl
  · intro h
    have : (Assoc.get? Ex.shapesProc.modules (loaderName p)).isNone = true := by rcases hp with rfl | rfl | rfl | rfl <;> decide +kernel
    rw [h] at this; cases this
  · intro sp _ _ ext _ e
    simp only [Ex.shapesWorld, Ex.world]
    split <;> simp

/-- a package with a compiled loader module, found and used both times, run once -/
example : Calm Ex.shapesWorld Ex.shapesProc Ex.shapes ∧ (Ex.twice Ex.shapesWorld Ex.shapesProc).1.toOption = some (.user 0, ⟨.custom 7, "point", true⟩) ∧
    (Ex.twice Ex.shapesWorld Ex.shapesProc).2.toOption = some (.user 0, ⟨.custom 7, "point", true⟩) ∧
    (lookup Ex.shapesWorld Ex.mgr (.user 0) [.user 0, .object] none Ex.shapesProc).2.execs = [Ex.shapes] := by
  refine ⟨shapes_calm (.inl rfl), by decide +kernel, by decide +kernel, by decide +kernel⟩

/-- the main model with the module in its table -/
def Ex.shapesEnv : Env := { Verif.Ex.env with mods := fun p => if p = "shapes" then some Ex.mod else none }

theorem shapes_fits : Fits Ex.shapesWorld Ex.shapesEnv := by
  have hu : ∀ k, (Verif.Ex.env.u k).origin = .pkg "shapes" := by
    intro k
    match k with
    | 0 => rfl
    | _ + 1 => rfl
  intro c
  have h : ∀ k, (Cls.user k).origin Ex.shapesEnv.u = .pkg "shapes" := hu
  cases c with
  | user k =>
    rw [h]
    have : homeOf (Ex.shapesWorld.moduleOf (.user k)) = .pkg Ex.shapes := by rfl
    rw [this]
    exact (by decide +kernel : String.ofList Ex.shapes = "shapes")
  | _ => first
    | exact trivial
    | exact (by decide +kernel : String.ofList Ex.builtins = "builtins")
    | exact (by decide +kernel : String.ofList Ex.numpy = "numpy")
    | exact (by decide +kernel : String.ofList Ex.scipy = "scipy")

theorem shapes_settled : Settled Ex.shapesWorld Ex.shapesEnv Ex.shapesProc := by
  refine .of_calm fun c => ?_
  have core : c = .nodeRef ∨ c = .recover ∨ c = .recGroup ∨ c = .recData ∨
    ∃ p, homeOf (Ex.shapesWorld.moduleOf c) = .pkg p ∧ (p = Ex.shapes ∨ p = Ex.builtins ∨ p = Ex.numpy ∨ p = Ex.scipy) := by
    cases c
    all_goals first
      | exact .inl rfl
      | exact .inr (.inl rfl)
      | exact .inr (.inr (.inl rfl))
      | exact .inr (.inr (.inr (.inl rfl)))
      | exact .inr (.inr (.inr (.inr ⟨Ex.shapes, rfl, .inl rfl⟩)))
      | exact .inr (.inr (.inr (.inr ⟨Ex.builtins, rfl, .inr (.inl rfl)⟩)))
      | exact .inr (.inr (.inr (.inr ⟨Ex.numpy, rfl, .inr (.inr (.inl rfl))⟩)))
      | exact .inr (.inr (.inr (.inr ⟨Ex.scipy, rfl, .inr (.inr (.inr rfl))⟩)))
  rcases core with rfl | rfl | rfl | rfl | ⟨p, h1, h2⟩
  iterate 4 exact ⟨[], .inr rfl⟩
  refine ⟨p, .inl ⟨h1, ?_, shapes_calm h2, ?_⟩⟩
  · have : (Assoc.get? Ex.shapesProc.custom p).isNone = true := by rcases h2 with rfl | rfl | rfl | rfl <;> decide +kernel
    simpa using this
  · rcases h2 with rfl | rfl | rfl | rfl <;> rfl

/-- so the theorem applies to the example, for every class and manager -/
example (m : Manager) (c : Cls) (base : Option String) :
    (lookup Ex.shapesWorld m c (c.mro Ex.shapesEnv.u) base Ex.shapesProc).1 = (loadLoader Ex.shapesEnv m c base Registry.initial).1 :=
  (C44_refines_partial shapes_fits shapes_settled m c base).1

/-- **C44 is violated for main scripts.**  The script `/home/me/run.py` has the loader module `hickle_loaders/load_run.py`, whose code
raises an exception.  The first dump raises it.  The second looks for `hickle_loaders/load___main__.py` instead, finds nothing, and
pickles the object without a word.  A loader module with that other name, ignored by the first dump, is used by the second. -/
theorem C44_violated_main :
    let main : Proc := Ex.proc tMain { file := some "/home/me/run.py".toList }
    let broken := Ex.twice (Ex.world tMain fun f => if f = "/home/me/hickle_loaders/load_run.py".toList then .code (.error .typeError) else .missing) main
    let other := Ex.twice (Ex.world tMain fun f => if f = "/home/me/hickle_loaders/load___main__.py".toList then .code (.ok (some Ex.mod)) else .missing) main
    Verif.Ex.raised broken.1 = some .typeError ∧ broken.2.toOption = some (.object, ⟨.pickled, "pickle", true⟩) ∧
    other.1.toOption = some (.object, ⟨.pickled, "pickle", true⟩) ∧ other.2.toOption = some (.user 0, ⟨.custom 7, "point", true⟩) := by
  refine ⟨by decide +kernel, by decide +kernel, by decide +kernel, by decide +kernel⟩

/-- **C44 is violated for packages in zip files**: looking for a loader module inside a zip file is `NotADirectoryError`, which is not
caught.  No object of a class of such a package can be dumped, although it could be pickled. -/
theorem C44_violated_zip :
    let zip : Proc := Ex.proc Ex.shapes { spec := some ⟨true, "/lib/all.zip/shapes/__init__.py".toList⟩ }
    let w : World := Ex.world Ex.shapes fun f => if "/lib/all.zip/".toList.isPrefixOf f then .refused .osError else .missing
    Verif.Ex.raised (Ex.twice w zip).1 = some .osError ∧ Verif.Ex.raised (Ex.twice w zip).2 = some .osError := by
  refine ⟨by decide +kernel, by decide +kernel⟩

/-- **C44 is violated for modules without a spec**, such as `sys.modules['shapes'] = types.ModuleType('shapes')`: `find_spec` raises
`ValueError`, and no object of a class defined there can be dumped. -/
theorem C44_violated_spec :
    let s : Proc := Ex.proc Ex.shapes {}
    Verif.Ex.raised (Ex.twice (Ex.world Ex.shapes fun _ => .missing) s).1 = some .valueError := by decide +kernel

/-- **C44 is violated for modules without tables**: a file `hickle_loaders/load_shapes.py` that has no `class_register` makes every dump of
an object of the package raise `AttributeError`. -/
theorem C44_violated_tables :
    let w : World := Ex.world Ex.shapes fun f => if f = "/lib/shapes/hickle_loaders/load_shapes.py".toList then .code (.ok none) else .missing
    Verif.Ex.raised (Ex.twice w Ex.shapesProc).1 = some .attributeError ∧ Verif.Ex.raised (Ex.twice w Ex.shapesProc).2 = some .attributeError := by
  refine ⟨by decide +kernel, by decide +kernel⟩

end Verif.Search
