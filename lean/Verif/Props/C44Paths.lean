import Verif.Props.C44
/-!
# C44, the places spelled out

`C44.lean` names the places in which loader modules are looked for with the path functions of the model.  Here the places are written
out, so that nothing has to be known of these functions.
-/
namespace Verif.Search

section lists
variable {α : Type} {q : α → Bool}

theorem takeWhile_stop {l m : List α} {x : α} (h : ∀ y ∈ l, q y = true) (hx : q x = false) : (l ++ x :: m).takeWhile q = l := by
  induction l with
  | nil => simp [hx]
  | cons a l ih => simp [h a (by simp), ih fun y hy => h y (by simp [hy])]

theorem dropWhile_stop {l m : List α} {x : α} (h : ∀ y ∈ l, q y = true) (hx : q x = false) : (l ++ x :: m).dropWhile q = x :: m := by
  induction l with
  | nil => simp [hx]
  | cons a l ih => simp [h a (by simp), ih fun y hy => h y (by simp [hy])]

theorem takeWhile_all {l : List α} (h : ∀ y ∈ l, q y = true) : l.takeWhile q = l := by
  induction l with
  | nil => rfl
  | cons a l ih => simp [h a (by simp), ih fun y hy => h y (by simp [hy])]

theorem dropWhile_all {l : List α} (h : ∀ y ∈ l, q y = true) : l.dropWhile q = [] := by
  induction l with
  | nil => rfl
  | cons a l ih => simp [h a (by simp), ih fun y hy => h y (by simp [hy])]

end lists

/-- of `d/b` the directory is `d` and the file is `b` -/
theorem dirname_of {d b : Name} {x : Char} (hx : x ≠ '/') (hb : '/' ∉ b) : dirname (d ++ x :: '/' :: b) = d ++ [x] := by
  have e : (d ++ x :: '/' :: b).reverse = b.reverse ++ '/' :: (x :: d.reverse) := by simp
  have h1 : ((d ++ x :: '/' :: b).reverse.dropWhile (· ≠ '/')) = '/' :: x :: d.reverse := by
    rw [e]
    refine dropWhile_stop (fun y hy => ?_) (by simp)
    have : y ≠ '/' := by rintro rfl; exact hb (by simpa using hy)
    simpa using this
  unfold dirname
  simp only [h1]
  have h2 : (('/' :: x :: d.reverse).reverse.all (· == '/')) = false := by simp [hx]
  rw [h2]
  simp [hx]

theorem dirname_root {b : Name} (hb : '/' ∉ b) : dirname ('/' :: b) = ['/'] := by
  have h1 : (('/' :: b).reverse.dropWhile (· ≠ '/')) = ['/'] := by
    have e : ('/' :: b).reverse = b.reverse ++ '/' :: [] := by simp
    rw [e]
    refine dropWhile_stop (fun y hy => ?_) (by simp)
    have : y ≠ '/' := by rintro rfl; exact hb (by simpa using hy)
    simpa using this
  unfold dirname
  simp only [h1]
  rfl

theorem basename_of {d b : Name} (hb : '/' ∉ b) : basename (d ++ '/' :: b) = b := by
  have e : (d ++ '/' :: b).reverse = b.reverse ++ '/' :: d.reverse := by simp
  unfold basename
  rw [e, takeWhile_stop (fun y hy => ?_) (by simp)]
  · simp
  · have : y ≠ '/' := by rintro rfl; exact hb (by simpa using hy)
    simpa using this

theorem beforeDot_of {b e : Name} (hb : '.' ∉ b) : beforeDot (b ++ '.' :: e) = b :=
  takeWhile_stop (fun y hy => by have : y ≠ '.' := by { rintro rfl; exact hb hy }
                                 simpa using this) (by simp)

/-- **C44, the file.**  The loader module of `p`, whose file is `b` in the directory `dir`, is the file
`dir/hickle_loaders/load_p.py`. -/
theorem C44_file {dir b p : Name} (hd : dir ≠ [] ∧ dir.getLast? ≠ some '/') (hb : '/' ∉ b) :
    loaderFile (dir ++ '/' :: b) p = dir ++ "/hickle_loaders/load_".toList ++ p ++ ".py".toList := by
  obtain ⟨d, x, rfl⟩ : ∃ d x, dir = d ++ [x] := ⟨dir.dropLast, dir.getLast hd.1, (List.dropLast_concat_getLast hd.1).symm⟩
  have hx : x ≠ '/' := by simpa using hd.2
  have e : d ++ [x] ++ '/' :: b = d ++ x :: '/' :: b := by simp
  unfold loaderFile
  rw [e, dirname_of hx hb]
  simp [join, isabs, tDir, tLoad, tPy, hx]

/-- in the root directory -/
theorem C44_file_root {b p : Name} (hb : '/' ∉ b) : loaderFile ('/' :: b) p = "/hickle_loaders/load_".toList ++ p ++ ".py".toList := by
  unfold loaderFile
  rw [dirname_root hb]
  simp [join, isabs, tDir, tLoad, tPy]

/-- of the module `p.q.r` the package is `p` -/
theorem C44_package {p rest : Name} (hp : '.' ∉ p) (hh : p ≠ "hickle".toList) : homeOf p = .pkg p ∧ homeOf (p ++ '.' :: rest) = .pkg p := by
  have hq : ∀ y ∈ p, decide (y ≠ '.') = true := fun y hy => by
    have : y ≠ '.' := by rintro rfl; exact hp hy
    simpa using this
  have hh' : p ≠ tHickle := hh
  constructor
  · unfold homeOf splitMax
    rw [dropWhile_all hq]
    simp [hh']
  · unfold homeOf splitMax
    rw [dropWhile_stop hq (by simp), takeWhile_stop hq (by simp)]
    simp [hh']

/-- classes defined by the loader module `hickle.loaders.load_n` -/
theorem C44_own_classes {n : Name} (hn : '.' ∉ n) : homeOf ("hickle.loaders.load_".toList ++ n) = .dummy n := by
  have hl : (['l', 'o', 'a', 'd', '_'] ++ n).dropWhile (· ≠ '.') = [] := dropWhile_all (fun y hy => by
    have : y ≠ '.' := by
      rintro rfl
      rcases List.mem_append.1 hy with h | h
      · simp at h
      · exact hn h
    simpa using this)
  have hs : splitMax 2 ("hickle.loaders.load_".toList ++ n) = [tHickle, tLoaders, ['l', 'o', 'a', 'd', '_'] ++ n] := by
    simp [splitMax, tHickle, tLoaders]
  unfold homeOf
  rw [hs]
  simp [tLoad, hn]

/-- the other classes of hickle -/
theorem C44_core_classes {m rest : Name} (hm : '.' ∉ m) (hl : m ≠ "loaders".toList) :
    homeOf ("hickle.".toList ++ m) = .core ∧ homeOf ("hickle.".toList ++ m ++ '.' :: rest) = .core := by
  have hq : ∀ y ∈ m, decide (y ≠ '.') = true := fun y hy => by
    have : y ≠ '.' := by rintro rfl; exact hm hy
    simpa using this
  have hl' : m ≠ tLoaders := hl
  have d1 := dropWhile_all hq
  have d2 := dropWhile_stop (m := rest) hq (x := '.') (by simp)
  have t2 := takeWhile_stop (m := rest) hq (x := '.') (by simp)
  constructor
  · have hs : splitMax 2 ("hickle.".toList ++ m) = [tHickle, m] := by
      have : "hickle.".toList ++ m = tHickle ++ '.' :: m := rfl
      rw [this]
      unfold splitMax
      rw [dropWhile_stop (by decide) (by simp), takeWhile_stop (by decide) (by simp)]
      simp only
      unfold splitMax
      rw [d1]
    unfold homeOf
    rw [hs]
    simp [hl']
  · have hs : splitMax 2 ("hickle.".toList ++ m ++ '.' :: rest) = [tHickle, m, rest] := by
      have : "hickle.".toList ++ m ++ '.' :: rest = tHickle ++ '.' :: (m ++ '.' :: rest) := by simp [tHickle]
      rw [this]
      unfold splitMax
      rw [dropWhile_stop (by decide) (by simp), takeWhile_stop (by decide) (by simp)]
      simp only
      unfold splitMax
      rw [d2, t2]
      simp [splitMax]
    unfold homeOf
    rw [hs]
    simp [hl']

/-- the script `dir/name.ext` is called `name` -/
theorem C44_script {dir name ext : Name} (hn : '.' ∉ name ∧ '/' ∉ name) (he : '/' ∉ ext) :
    beforeDot (basename (dir ++ '/' :: (name ++ '.' :: ext))) = name := by
  rw [basename_of (by simp [hn.2, he]), beforeDot_of hn.1]

/-- **C44, a class with a loader of its own.**  The class is defined in the package `p` or a module of it, the package's file is `b` in the directory `dir`, and
`dir/hickle_loaders/load_p.py` holds a loader module `lm` that registers the class.  If there is nothing for the class yet and hickle itself
has no loader module for `p`, then looking up the class runs this module and gives what it registers. -/
theorem C44_lookup {w : World} {s : Proc} {m : Manager} {c : Cls} {ks : List Cls} {base : Option String} {p dir b : Name} {lm : LoaderMod} {r : Registry} {e : Entry}
    (hp : '.' ∉ p) (hh : p ≠ "hickle".toList) (hmod : w.moduleOf c = p ∨ ∃ rest, w.moduleOf c = p ++ '.' :: rest)
    (hspec : specOf w s p = some ⟨true, dir ++ '/' :: b⟩) (hd : dir ≠ [] ∧ dir.getLast? ≠ some '/') (hb : '/' ∉ b)
    (hfile : w.files (dir ++ "/hickle_loaders/load_".toList ++ p ++ ".py".toList) = .code (.ok (some lm)))
    (hnone : m.typeEntry s.reg c = none) (hmain : Assoc.get? s.custom p = none) (hload : s.loaded p = false)
    (hnew : Assoc.get? s.modules ("hickle.loaders.load_".toList ++ p) = none) (hown : w.own p = none)
    (hreg : runLoader (String.ofList p) lm s.reg = (.ok (), r)) (he : m.typeEntry r c = some e) :
    (lookup w m c (c :: ks) base s).1 = .ok (c, e) := by
  have hhome : homeOf (w.moduleOf c) = .pkg p := by
    rcases hmod with h | ⟨rest, h⟩ <;> rw [h]
    · exact (C44_package (rest := []) hp hh).1
    · exact (C44_package hp hh).2
  have hnew' : Assoc.get? s.modules (loaderName p) = none := hnew
  have hpf : packageFile w s p [] = .ok (some (dir ++ '/' :: b)) := by
    unfold specOf at hspec
    unfold packageFile Proc.sys findSpec
    simp only [ne_eq, not_true_eq_false, if_false]
    cases hg : Assoc.get? s.modules p with
    | none => rw [hg] at hspec; simp only at hspec; simp [hspec]
    | some mo =>
      rw [hg] at hspec
      cases mo with
      | none => simp at hspec
      | some mo =>
        simp only [Option.bind_some] at hspec
        simp [hspec]
  have hcode : findCode w s p p (some []) = .ok (some (.ok (some lm))) := by
    unfold findCode
    simp only [hnew', Option.isSome_none, Bool.false_eq_true, if_false, hown, hpf, C44_file hd hb, hfile]
  have hres : resolve w p s = (.ok (some (p, p, [])), s) := by
    unfold resolve
    rw [M.bind_of_ok (M.get_apply s), hmain]
    rfl
  have hget : getModule w p p (some []) s =
      (.ok (some (some lm)), { s with modules := Assoc.put s.modules (loaderName p) (some { tables := some lm }), execs := p :: s.execs }) := by
    unfold getModule
    rw [M.bind_of_ok (M.get_apply s)]
    have : s.sys (loaderName p) = none := by unfold Proc.sys; simp [hnew']
    simp only [this, hcode]
    rfl
  unfold lookup lookupAux
  rw [M.bind_of_ok (M.get_apply s)]
  simp only [hnone, hhome]
  rw [M.bind_of_ok hres]
  simp only [hload, Bool.false_eq_true, if_false]
  rw [M.bind_of_ok hget]
  simp only
  have hrg : register p (some lm) { s with modules := Assoc.put s.modules (loaderName p) (some { tables := some lm }), execs := p :: s.execs } =
      (.ok (), { s with modules := Assoc.put s.modules (loaderName p) (some { tables := some lm }), execs := p :: s.execs, reg := r }) := by
    unfold register onReg
    simp only [hreg]
  rw [M.bind_of_ok hrg, M.bind_of_ok (M.get_apply _)]
  simp only [he]
  rfl

/-- Python can tell that the file of the main script is `F` -/
inductive ScriptIs (w : World) (s : Proc) (mo : Mod) (F : Name) : Prop
  /-- from `__file__` -/
  | file : mo.file = some F → F.head? = some '/' → ScriptIs w s mo F
  /-- from its loader, without `__file__` -/
  | loader : mo.file = none → mo.loader = some ⟨true, F⟩ → F.head? = some '/' → ScriptIs w s mo F
  /-- `__file__` is the relative name `g.ext`, and the module `g`, imported or not, is in `F` -/
  | relative {g ext : Name} : mo.file = some (g ++ '.' :: ext) → '.' ∉ g ∧ '/' ∉ g →
      (Assoc.get? s.modules g = none ∧ w.finder g = some ⟨true, F⟩ ∨ ∃ mg : Mod, Assoc.get? s.modules g = some (some mg) ∧ mg.spec = some ⟨true, F⟩) → ScriptIs w s mo F

theorem ScriptIs.mainFile {w : World} {s : Proc} {mo : Mod} {F : Name} (h : ScriptIs w s mo F) : mainFile w s mo = .ok (some F) := by
  unfold Search.mainFile
  cases h with
  | file h1 h2 => simp only [h1, isabs, h2]; rfl
  | loader h1 h2 h3 => simp [h1, h2, isabs, h3]
  | @relative g ext h1 h2 h3 =>
    have habs : isabs (g ++ '.' :: ext) = false := by
      cases g with
      | nil => rfl
      | cons x g =>
        have : x ≠ '/' := by rintro rfl; simp at h2
        simpa [isabs] using this
    have hb : basename g = g := by
      unfold basename
      have : ∀ l : Name, '/' ∉ l → l.takeWhile (· ≠ '/') = l := by
        intro l
        induction l with
        | nil => intro _; rfl
        | cons y l ih =>
          intro h
          simp only [List.mem_cons, not_or] at h
          rw [List.takeWhile_cons_of_pos (by simpa using Ne.symm h.1), ih h.2]
      rw [this _ (by simpa using h2.2), List.reverse_reverse]
    have hs : findSpec w s g = .ok (some ⟨true, F⟩) := by
      unfold findSpec
      rcases h3 with ⟨e1, e2⟩ | ⟨mg, e1, e2⟩
      · simp only [e1, e2]
      · simp only [e1, e2]
    simp only [h1, habs, beforeDot_of h2.1, hb, hs, Bool.false_eq_true, if_false, if_true]

/-- **C44, a class of the main script.**  The same for the script `dir/name.py`, the first time. -/
theorem C44_main_lookup_partial {w : World} {s : Proc} {m : Manager} {c : Cls} {ks : List Cls} {base : Option String} {mo : Mod} {name dir ext : Name} {lm : LoaderMod}
    {r : Registry} {e : Entry} (hn : '.' ∉ name ∧ '/' ∉ name) (hx : '/' ∉ ext) (hmod : w.moduleOf c = "__main__".toList)
    (hsys : s.sys "__main__".toList = some mo) (hmo : ScriptIs w s mo (dir ++ '/' :: (name ++ '.' :: ext)))
    (hd : dir ≠ [] ∧ dir.getLast? ≠ some '/')
    (hfile : w.files (dir ++ "/hickle_loaders/load_".toList ++ name ++ ".py".toList) = .code (.ok (some lm)))
    (hnone : m.typeEntry s.reg c = none) (hmain : Assoc.get? s.custom "__main__".toList = some (none, [])) (hload : s.loaded name = false)
    (hnew : Assoc.get? s.modules ("hickle.loaders.load_".toList ++ name) = none) (hown : w.own name = none)
    (hreg : runLoader (String.ofList name) lm s.reg = (.ok (), r)) (he : m.typeEntry r c = some e) :
    (lookup w m c (c :: ks) base s).1 = .ok (c, e) := by
  have hhome : homeOf (w.moduleOf c) = .pkg tMain := by
    rw [hmod]
    exact (C44_package (rest := []) (by decide) (by decide)).1
  have hne := hd.1
  have hf := hmo.mainFile
  have hnew' : Assoc.get? s.modules (loaderName name) = none := hnew
  have hb : '/' ∉ name ++ '.' :: ext := by simp [hn.2, hx]
  have hne' : dir ++ '/' :: (name ++ '.' :: ext) ≠ [] := by simp
  generalize hF : dir ++ '/' :: (name ++ '.' :: ext) = F at hf hne'
  have hpath : loaderFile F name = dir ++ "/hickle_loaders/load_".toList ++ name ++ ".py".toList := by rw [← hF]; exact C44_file ⟨hne, hd.2⟩ hb
  have hname : beforeDot (basename F) = name := by rw [← hF]; exact C44_script hn hx
  have hres : resolve w tMain s = (.ok (some (name, name, F)), { s with custom := Assoc.put s.custom tMain (some name, F) }) := by
    have h1 : Assoc.get? s.custom tMain = some (none, []) := hmain
    have h2 : s.sys tMain = some mo := hsys
    unfold resolve
    rw [M.bind_of_ok (M.get_apply s), h1]
    simp only [h2, hf, hname]
    rfl
  have hcode : findCode w { s with custom := Assoc.put s.custom tMain (some name, F) } name name (some F) = .ok (some (.ok (some lm))) := by
    unfold findCode packageFile
    simp only [hnew', Option.isSome_none, Bool.false_eq_true, if_false, hown, ne_eq, hne', not_false_eq_true, if_true, hpath, hfile]
  have hget : getModule w name name (some F) { s with custom := Assoc.put s.custom tMain (some name, F) } =
      (.ok (some (some lm)), { s with custom := Assoc.put s.custom tMain (some name, F), modules := Assoc.put s.modules (loaderName name) (some { tables := some lm }), execs := name :: s.execs }) := by
    unfold getModule
    rw [M.bind_of_ok (M.get_apply _)]
    have : Proc.sys { s with custom := Assoc.put s.custom tMain (some name, F) } (loaderName name) = none := by unfold Proc.sys; simp [hnew']
    simp only [this, hcode]
    rfl
  unfold lookup lookupAux
  rw [M.bind_of_ok (M.get_apply s)]
  simp only [hnone, hhome]
  rw [M.bind_of_ok hres]
  simp only [hload, Bool.false_eq_true, if_false]
  rw [M.bind_of_ok hget]
  simp only
  have hrg : register name (some lm) { s with custom := Assoc.put s.custom tMain (some name, F), modules := Assoc.put s.modules (loaderName name) (some { tables := some lm }), execs := name :: s.execs } =
      (.ok (), { s with custom := Assoc.put s.custom tMain (some name, F), modules := Assoc.put s.modules (loaderName name) (some { tables := some lm }), execs := name :: s.execs, reg := r }) := by
    unfold register onReg
    simp only [hreg]
  rw [M.bind_of_ok hrg, M.bind_of_ok (M.get_apply _)]
  simp only [he]
  rfl

/-- **C44 is violated by every main script, after the first lookup.**  Once the script `dir/name.ext` has been recognised and its loader module
neither belongs to hickle nor is imported (it did not exist the first time, or raised), what is run as its loader module is the
file `dir/hickle_loaders/load___main__.py`, whatever `load_name.py` is; it is imported under the name of the latter. -/
theorem C44_violated_later {w : World} {s : Proc} {name dir ext : Name} {c : Code} (hn : '/' ∉ name) (hx : '/' ∉ ext)
    (hd : dir ≠ [] ∧ dir.getLast? ≠ some '/') (hmain : Assoc.get? s.custom "__main__".toList = some (some name, dir ++ '/' :: (name ++ '.' :: ext)))
    (hnew : Assoc.get? s.modules ("hickle.loaders.load_".toList ++ name) = none) (hown : w.own name = none)
    (hfile : w.files (dir ++ "/hickle_loaders/load___main__.py".toList) = .code c) :
    resolve w "__main__".toList s = (.ok (some (name, "__main__".toList, dir ++ '/' :: (name ++ '.' :: ext))), s) ∧
      findCode w s name "__main__".toList (some (dir ++ '/' :: (name ++ '.' :: ext))) = .ok (some c) := by
  constructor
  · unfold resolve
    rw [M.bind_of_ok (M.get_apply s), hmain]
    rfl
  · have hnew' : Assoc.get? s.modules (loaderName name) = none := hnew
    have hb : '/' ∉ name ++ '.' :: ext := by simp [hn, hx]
    have hne : dir ++ '/' :: (name ++ '.' :: ext) ≠ [] := by simp
    have hpath : loaderFile (dir ++ '/' :: (name ++ '.' :: ext)) "__main__".toList = dir ++ "/hickle_loaders/load___main__.py".toList := by
      rw [C44_file hd hb]
      simp
    unfold findCode packageFile
    simp only [hnew', Option.isSome_none, Bool.false_eq_true, if_false, hown, ne_eq, hne, not_false_eq_true, if_true, hpath, hfile]

/-! ### examples -/

/-- the class `shapes.round.Circle` of the package in `/lib/shapes` -/
def Ex.circle : World := { Ex.world (Ex.shapes ++ ".round".toList) fun f =>
    if f = "/lib/shapes/hickle_loaders/load_shapes.py".toList then .code (.ok (some Ex.mod)) else .missing with
  finder := fun n => if n = Ex.shapes then some ⟨true, Ex.shapesFile⟩ else none }

/-- a script `/home/me/run.v2.py` with a loader module beside it -/
def Ex.script : World := Ex.world tMain fun f => if f = "/home/me/hickle_loaders/load_run.py".toList then .code (.ok (some Ex.mod)) else .missing
def Ex.scriptProc : Proc := { modules := [(tMain, some { file := some "/home/me/run.v2.py".toList })] }

/-- the registry after the loader module has been run under this name -/
def Ex.after (n : Name) : Registry := (runLoader (String.ofList n) Ex.mod Registry.initial).2

example : (lookup Ex.circle Ex.mgr (.user 0) [.user 0, .object] none { modules := [] }).1 = .ok (.user 0, ⟨.custom 7, "point", true⟩) :=
  C44_lookup (p := Ex.shapes) (dir := "/lib/shapes".toList) (b := "__init__.py".toList) (lm := Ex.mod) (r := Ex.after Ex.shapes)
    (by decide) (by decide) (.inr ⟨"round".toList, rfl⟩) rfl (by decide) (by decide) rfl rfl rfl rfl rfl rfl rfl rfl

example : (lookup Ex.script Ex.mgr (.user 0) [.user 0, .object] none Ex.scriptProc).1 = .ok (.user 0, ⟨.custom 7, "point", true⟩) :=
  C44_main_lookup_partial (name := "run".toList) (ext := "v2.py".toList) (dir := "/home/me".toList) (lm := Ex.mod) (r := Ex.after "run".toList)
    (by decide) (by decide) rfl rfl (.file rfl rfl) (by decide) rfl rfl rfl rfl rfl rfl rfl rfl

/-- the same script, started as `run.v2.py` in `/home/me` by something that leaves `__file__` relative -/
example : (lookup { Ex.script with finder := fun n => if n = "run".toList then some ⟨true, "/home/me/run.v2.py".toList⟩ else none } Ex.mgr (.user 0) [.user 0, .object] none
    { modules := [(tMain, some { file := some "run.v2.py".toList })] }).1 = .ok (.user 0, ⟨.custom 7, "point", true⟩) :=
  C44_main_lookup_partial (name := "run".toList) (ext := "v2.py".toList) (dir := "/home/me".toList) (lm := Ex.mod) (r := Ex.after "run".toList)
    (by decide) (by decide) rfl rfl (.relative (g := "run".toList) (ext := "v2.py".toList) rfl (by decide) (.inl ⟨rfl, rfl⟩)) (by decide) rfl rfl rfl rfl rfl rfl rfl rfl

/-- the script `/home/me/run.v2.py`, recognised before -/
example : findCode (Ex.world tMain fun f => if f = "/home/me/hickle_loaders/load___main__.py".toList then .code (.ok (some Ex.mod)) else .missing)
    { modules := [], custom := [(tMain, (some "run".toList, "/home/me/run.v2.py".toList))] } "run".toList tMain (some "/home/me/run.v2.py".toList) = .ok (some (.ok (some Ex.mod))) :=
  (C44_violated_later (name := "run".toList) (ext := "v2.py".toList) (dir := "/home/me".toList) (by decide) (by decide) (by decide) rfl rfl rfl rfl).2

end Verif.Search
