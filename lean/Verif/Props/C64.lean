import Verif.Props.C63
/-!
# C64: `safe=True` keeps `load` from unpickling what is in a file of hickle 3

`load` documents `safe` as "Disable automatic depickling of arbitrary python objects", and as ignored for files of hickle 4 and later.
Specification: `Data v`: the value holds no object of a class hickle does not know, so no pickle string was made into one;
`NoPickle n`: there is no pickle string in the file.

`C64_violated`: with `safe=True` the objects in pickle strings are loaded all the same.
-/
namespace Verif.V3

/-- built-in types, numbers and arrays only -/
inductive Data : PV → Prop
  | none : Data .none
  | bool (b) : Data (.bool b)
  | int (i) : Data (.int i)
  | float (x) : Data (.float x)
  | cplx (x y) : Data (.cplx x y)
  | str (s) : Data (.str s)
  | bytes (b) : Data (.bytes b)
  | np (v) : Data (.np v)
  | arr (a) : Data (.arr a)
  | masked (a m) : Data (.masked a m)
  | sparse (k d ix ip s) : Data (.sparse k d ix ip s)
  | seq (k items) : (∀ x ∈ items, Data x) → Data (.seq k items)
  | dict (es) : (∀ e ∈ es, Data e.1) → (∀ e ∈ es, Data e.2) → Data (.dict es)
  | cont (n kt items) : (∀ x ∈ items, Data x) → Data (.cont n kt items)

/-- no dataset below the node is a pickle string -/
inductive NoPickle : Node → Prop
  | dset (d at') : (∀ v, d ≠ .pickle v) → NoPickle (.dset d at')
  | group (at' ms) : (∀ e ∈ ms, NoPickle e.2) → NoPickle (.group at' ms)

theorem bind_ok' {α β : Type} {x : Except PyErr α} {f : α → Except PyErr β} {b : β} (h : (x >>= f) = .ok b) : ∃ a, x = .ok a ∧ f a = .ok b := by
  cases x with
  | error e => simp [bind, Except.bind] at h
  | ok a => exact ⟨a, rfl, h⟩

theorem map_ok' {α β : Type} {x : Except PyErr α} {f : α → β} {b : β} (h : x.map f = .ok b) : ∃ a, x = .ok a ∧ f a = b := by
  cases x with
  | error e => simp [Except.map] at h
  | ok a => simp only [Except.map] at h; injection h with h; exact ⟨a, rfl, h⟩

theorem mapM_all {α β : Type} {f : α → Except PyErr β} {Q : β → Prop} : ∀ {xs : List α} {ys : List β}, xs.mapM f = .ok ys → (∀ x y, x ∈ xs → f x = .ok y → Q y) → ∀ y ∈ ys, Q y
  | [], ys, h, _ => by simp [pure, Except.pure] at h; subst h; simp
  | x :: xs, ys, h, hq => by
    rw [List.mapM_cons] at h
    obtain ⟨y, h1, h⟩ := bind_ok' h
    obtain ⟨ys', h2, h⟩ := bind_ok' h
    simp only [pure, Except.pure] at h
    injection h with h
    subst h
    intro z hz
    rcases List.mem_cons.1 hz with rfl | hz
    · exact hq x _ List.mem_cons_self h1
    · exact mapM_all h2 (fun x y hx => hq x y (List.mem_cons_of_mem _ hx)) z hz

theorem litToken_data {l : Libs} {t : PyStr} {v : PV} (h : litToken l t = some v) : Data v := by
  unfold litToken at h
  split at h
  · cases h; exact .none
  split at h
  · cases h; exact .bool _
  split at h
  · cases h; exact .bool _
  split at h
  · split at h
    · cases h; exact .int _
    · cases h
  · split at h
    · cases h
    · cases hp : l.env.parseF t with
      | none => rw [hp] at h; cases h
      | some x => rw [hp] at h; cases h; exact .float _

theorem lit_data {l : Libs} : ∀ f, (∀ s v r, lit l f s = some (v, r) → Data v) ∧ (∀ s vs r, litItems l f s = some (vs, r) → ∀ v ∈ vs, Data v)
  | 0 => ⟨fun s v r h => by rw [lit] at h; simp at h, fun s vs r h => by rw [litItems] at h; simp at h⟩
  | f + 1 => by
    obtain ⟨ih1, ih2⟩ := lit_data (l := l) f
    refine ⟨fun s v r h => ?_, fun s vs r h => ?_⟩
    · cases s with
      | nil => rw [lit] at h; cases h
      | cons c cs =>
        rw [lit] at h
        split at h
        · split at h
          · cases h; exact .seq _ _ (by simp)
          · split at h
            · next x r' hx =>
              have hd := ih1 _ _ _ hx
              split at h
              · cases h; exact .seq _ _ (by simpa using hd)
              · split at h
                · split at h
                  · next xs r'' hxs =>
                    cases h
                    refine .seq _ _ fun y hy => ?_
                    rcases List.mem_cons.1 hy with rfl | hy
                    · exact hd
                    · exact ih2 _ _ _ hxs y hy
                  · cases h
                · cases h
            · cases h
        · split at h
          · cases hb : litBody c .plain cs with
            | none => rw [hb] at h; cases h
            | some p => rw [hb] at h; cases h; exact .str _
          · split at h
            · split at h
              · split at h
                · cases h; exact .bytes _
                · cases h
              · cases h
            · cases ht : litToken l ((c :: cs).takeWhile fun x => !tokenEnd x) with
              | none => rw [ht] at h; cases h
              | some w => rw [ht] at h; cases h; exact litToken_data ht
    · rw [litItems] at h
      split at h
      · next x r' hx =>
        have hd := ih1 _ _ _ hx
        split at h
        · cases h; simpa using hd
        · split at h
          · split at h
            · next xs r'' hxs =>
              cases h
              intro y hy
              rcases List.mem_cons.1 hy with rfl | hy
              · exact hd
              · exact ih2 _ _ _ hxs y hy
            · cases h
          · cases h
      · cases h

theorem convKey_data {l : Libs} {kt : String} {t : PyStr} {v : PV} (h : convKey l kt t = .ok v) : Data v := by
  unfold convKey at h
  split at h
  · unfold literalEval at h
    split at h
    · next hl => cases h; exact (lit_data _).1 _ _ _ hl
    · cases h
  split at h
  · split at h
    · cases h; exact .float _
    · cases h
  split at h
  · cases h; exact .bool _
  split at h
  · split at h
    · split at h
      · cases h; exact .int _
      · cases h
    · cases h
  split at h
  · split at h
    · cases h; exact .cplx _ _
    · cases h
  · cases h; exact .str _

theorem setOf_data {oeq : Nat → Nat → Bool} : ∀ {items acc vs : List PV}, (∀ x ∈ acc, Data x) → (∀ x ∈ items, Data x) → setOf oeq acc items = .ok vs → ∀ x ∈ vs, Data x
  | [], acc, vs, ha, _, h => by rw [setOf] at h; cases h; exact ha
  | v :: items, acc, vs, ha, hi, h => by
    rw [setOf] at h
    have hi' : ∀ x ∈ items, Data x := fun x hx => hi x (List.mem_cons_of_mem _ hx)
    split at h
    · cases h
    · split at h
      · exact setOf_data ha hi' h
      · refine setOf_data (fun x hx => ?_) hi' h
        rcases List.mem_append.1 hx with hx | hx
        · exact ha x hx
        · obtain rfl := List.mem_singleton.1 hx
          exact hi _ List.mem_cons_self

theorem mkSeq_data {l : Libs} {k : SeqK} {items : List PV} {v : PV} (hi : ∀ x ∈ items, Data x) (h : mkSeq l k items = .ok v) : Data v := by
  unfold mkSeq at h
  split at h
  · obtain ⟨vs, h1, rfl⟩ := map_ok' h
    exact .seq _ _ (setOf_data (by simp) hi h1)
  · cases h; exact .seq _ _ hi

theorem dictPut_data {oeq : Nat → Nat → Bool} {k v : PV} (hk : Data k) (hv : Data v) : ∀ {es : List (PV × PV)}, (∀ e ∈ es, Data e.1 ∧ Data e.2) → ∀ e ∈ dictPut oeq k v es, Data e.1 ∧ Data e.2
  | [], _, e, he => by rw [dictPut] at he; obtain rfl := List.mem_singleton.1 he; exact ⟨hk, hv⟩
  | (k', v') :: es, h, e, he => by
    rw [dictPut] at he
    have h' : ∀ e ∈ es, Data e.1 ∧ Data e.2 := fun e he => h e (List.mem_cons_of_mem _ he)
    split at he
    · rcases List.mem_cons.1 he with rfl | he
      · exact ⟨(h _ List.mem_cons_self).1, hv⟩
      · exact h' e he
    · rcases List.mem_cons.1 he with rfl | he
      · exact h _ List.mem_cons_self
      · exact dictPut_data hk hv h' e he

theorem dictOf_data {oeq : Nat → Nat → Bool} : ∀ {es acc r : List (PV × PV)}, (∀ e ∈ acc, Data e.1 ∧ Data e.2) → (∀ e ∈ es, Data e.1 ∧ Data e.2) → dictOf oeq acc es = .ok r → ∀ e ∈ r, Data e.1 ∧ Data e.2
  | [], acc, r, ha, _, h => by rw [dictOf] at h; cases h; exact ha
  | (k, v) :: es, acc, r, ha, he, h => by
    rw [dictOf] at h
    have h1 := he _ List.mem_cons_self
    split at h
    · cases h
    · exact dictOf_data (dictPut_data h1.1 h1.2 ha) (fun e hm => he e (List.mem_cons_of_mem _ hm)) h

theorem dictEntries_data {l : Libs} : ∀ {vs : List PV} {es : List (PV × PV)}, (∀ x ∈ vs, Data x) → dictEntries l vs = .ok es → ∀ e ∈ es, Data e.1 ∧ Data e.2
  | [], es, _, h => by rw [dictEntries] at h; cases h; simp
  | v :: vs, es, hv, h => by
    have h0 := hv _ List.mem_cons_self
    cases h0 with
    | cont name kt items hi =>
      cases kt with
      | none => rw [dictEntries] at h; cases h
      | some kt =>
        rw [dictEntries] at h
        obtain ⟨k, h1, h⟩ := bind_ok' h
        obtain ⟨es', h2, h⟩ := bind_ok' h
        split at h
        · cases h
          intro e he
          rcases List.mem_cons.1 he with rfl | he
          · exact ⟨convKey_data h1, hi _ List.mem_cons_self⟩
          · exact dictEntries_data (fun x hx => hv x (List.mem_cons_of_mem _ hx)) h2 e he
        · cases h
    | _ => rw [dictEntries] at h <;> first | (cases h; done) | simp

theorem convert_data {l : Libs} {type : String} {name : PyStr} {kt : Option String} {items : List PV} {v : PV} (hi : ∀ x ∈ items, Data x)
    (h : convert l type name kt items = .ok v) : Data v := by
  unfold convert at h
  split at h
  · exact mkSeq_data hi h
  · split at h
    · split at h
      · cases h; exact hi _ List.mem_cons_self
      · cases h
    · split at h
      · obtain ⟨es, h1, h⟩ := bind_ok' h
        obtain ⟨r, h2, rfl⟩ := map_ok' h
        have := dictOf_data (by simp) (dictEntries_data hi h1) h2
        exact .dict _ (fun e he => (this e he).1) (fun e he => (this e he).2)
      · cases h; exact .cont _ _ _ hi

theorem castPy_data {n : String} {x : NpVal} {v : PV} (h : castPy n x = .ok v) : Data v := by
  unfold castPy at h
  repeat' split at h
  all_goals first | (cases h; done) | (cases h; constructor)

theorem listItems_data {d : DSet} {st : Option String} {vs : List PV} (h : listItems d st = .ok vs) : ∀ x ∈ vs, Data x := by
  unfold listItems at h
  split at h
  · split at h
    · refine mapM_all h fun b y _ hy => ?_
      unfold decodeBytes at hy
      repeat' split at hy
      all_goals first | (cases hy; done) | (cases hy; constructor)
    · split at h
      · refine mapM_all h fun b y _ hy => ?_
        unfold decodeText at hy
        split at hy
        all_goals first | (cases hy; done) | (cases hy; constructor)
      · cases h
        intro x hx
        obtain ⟨b, _, rfl⟩ := List.mem_map.1 hx
        exact .bytes _
  · split at h
    · cases h
      intro x hx
      obtain ⟨b, _, rfl⟩ := List.mem_map.1 hx
      exact .np _
    · cases h
  · cases h

theorem loadDataset_data {l : Libs} {sib : Members} {name : PyStr} {d : DSet} {at' : List (String × String)} {v : PV} (hd : ∀ w, d ≠ .pickle w)
    (h : loadDataset l sib name d at' = .ok v) : Data v := by
  unfold loadDataset at h
  split at h
  · cases h
  split at h
  · obtain ⟨vs, h1, h⟩ := bind_ok' h
    exact mkSeq_data (listItems_data h1) h
  split at h
  · split at h
    · cases h; exact .bytes _
    · cases h
  split at h
  · split at h
    · split at h
      · split at h
        · cases h; exact .str _
        · cases h
      · cases h; exact .str _
    · cases h
  split at h
  · split at h
    · exact castPy_data h
    · cases h
    · cases h
  split at h
  · cases h; exact .none
  split at h
  · split at h
    · next w => exact absurd rfl (hd w)
    · cases h
  split at h
  · split at h
    · cases h; exact .np _
    · cases h
  split at h
  · split at h
    · cases h; exact .arr _
    · cases h
  split at h
  · unfold loadMasked at h
    repeat' split at h
    all_goals first | (cases h; done) | (cases h; constructor)
  split at h
  · cases h; exact .none
  split at h
  · unfold loadSparse at h
    repeat' split at h
    all_goals first | (cases h; done) | (cases h; constructor)
  · split at h
    · cases h; exact .none
    · cases h

theorem load_data {l : Libs} : ∀ {f : Nat} {sib : Members} {name : PyStr} {n : Node} {v : PV}, NoPickle n → load l f sib name n = .ok v → Data v
  | 0, _, _, _, _, _, h => by rw [load] at h; cases h
  | f + 1, sib, name, .dset d at', v, hn, h => by
    rw [load] at h
    cases hn with
    | dset _ _ hd => exact loadDataset_data hd h
  | f + 1, sib, name, .group at' ms, v, hn, h => by
    cases hn with
    | group _ _ hm =>
      rw [load] at h
      split at h
      · cases h
      · obtain ⟨kt, _, h⟩ := bind_ok' h
        obtain ⟨keys, _, h⟩ := bind_ok' h
        obtain ⟨items, h1, h⟩ := bind_ok' h
        refine convert_data (mapM_all h1 fun k y _ hy => ?_) h
        unfold member at hy
        split at hy
        · cases hy
        · next n hg => exact load_data (hm _ (Assoc.get?_mem hg)) hy

theorem nodeAt_noPickle : ∀ {path : List PyStr} {n m : Node}, NoPickle n → nodeAt path n = some m → NoPickle m
  | [], n, m, hn, h => by rw [nodeAt] at h; cases h; exact hn
  | c :: cs, .dset d at', m, hn, h => by rw [nodeAt] at h; cases h
  | c :: cs, .group at' ms, m, hn, h => by
    rw [nodeAt] at h
    split at h
    · cases h
    · next n hg =>
      cases hn with
      | group _ _ hm => exact nodeAt_noPickle (hm _ (Assoc.get?_mem hg)) h

/-- the file the code of version 3 reads, if it reads one -/
theorem hickleLoad_ok {l : Libs} {f : Nat} {fs : Files} {a : Arg} {p : PyStr} {safe : Bool} {fn : NameArg} {v : PV} (h : hickleLoad l f fs a p safe fn = .ok v) :
    ∃ o root path, fileOpener a = .ok o ∧ fs.read o.1 = .ok root ∧ loadFile l f path root = .ok v := by
  unfold hickleLoad at h
  obtain ⟨o, _, h⟩ := bind_ok' h
  obtain ⟨root, _, h⟩ := bind_ok' h
  split at h
  · next w hw =>
    cases h
    unfold loadTry at hw
    split at hw
    · split at hw
      · cases hw
      · unfold legacyLoad at hw
        obtain ⟨o', h1, hw⟩ := bind_ok' hw
        obtain ⟨root', h2, hw⟩ := bind_ok' hw
        exact ⟨o', root', _, h1, h2, hw⟩
      · cases hw
      · cases hw
    · cases hw
  · cases h

/-- **C64.**  What `load` returns from a file of hickle 3 that has no pickle string in it is data: no object of any other class,
whatever else is in the file (damaged or made by hand), however it is given, with `safe` or without.
Missing: files with pickle strings, for which `safe` does not hold what it promises (see below). -/
theorem C64_partial {l : Libs} {f : Nat} {fs : Files} {a : Arg} {p : PyStr} {safe : Bool} {fn : NameArg} {v : PV}
    (hn : ∀ s n, fs.content s = some n → NoPickle n) (h : hickleLoad l f fs a p safe fn = .ok v) : Data v := by
  obtain ⟨o, root, path, _, h1, h⟩ := hickleLoad_ok h
  have hr : NoPickle root := by
    unfold Files.read at h1
    repeat' split at h1
    all_goals first | (cases h1; done) | skip
    · next hc => cases h1; exact hn _ _ hc
    · next hc => cases h1; exact hn _ _ hc
  cases root with
  | dset d at' => rw [loadFile] at h; cases h
  | group at' ms =>
    rw [loadFile] at h
    split at h
    · split at h
      · cases h
      · split at h
        · cases h
        · split at h
          · split at h
            · cases h
            · next n hp =>
              obtain ⟨w, h2, h⟩ := bind_ok' h
              have hw := load_data (nodeAt_noPickle hr hp) h2
              unfold firstOf at h
              split at h
              all_goals first | (cases h; done) | skip
              all_goals
                cases h
                cases hw
                rename_i hi
                exact hi _ List.mem_cons_self
          · cases h; exact .none
    · cases h

/-- a file with a list and a damaged dataset in it -/
example : NoPickle (.group [("CLASS", "hickle"), ("VERSION", "3.4.8"), ("PYTHON_VERSION", "3.8.0"), ("type", "hickle")]
    [(dataName 0, .dset (.array ⟨.int64, [2], [.i 1, .i 2]⟩) [("type", "<class 'list'>")]), (ps "x", .dset (.text (ps "a")) [])]) :=
  .group _ _ fun e he => by
    simp only [List.mem_cons, List.not_mem_nil, or_false] at he
    rcases he with rfl | rfl <;> exact .dset _ _ (by simp)

/-- **The full property does not hold.**  Whatever object of another class version 3 has written into a file: `load` with `safe=True`
unpickles and returns it. -/
theorem C64_violated {l : Libs} (hx : TextOk l.env) (hl : Lists l) (c st : Nat) {fuel : Nat} {path : List PyStr} {root file : Node}
    (hnew : nodeAt path root = none ∨ path = [] ∧ ∃ at', root = .group at' []) (h : dumpFile l fuel path (.opaque c st) root = .ok file)
    {fs : Files} {a : Arg} (ha : Gives fs file a) {p : PyStr} (hp : Verif.comps p = path) (fn : NameArg) :
    (∃ f0, ∀ f, f0 ≤ f → hickleLoad l f fs a p true fn = .ok (.opaque c st)) ∧ ¬ Data (.opaque c st) := by
  obtain ⟨w, hw, hf⟩ := C63_partial hx hl ⟨fun _ => .opaque c st, fun h => by simp [PV.isMasked] at h⟩ hnew h ha hp true fn
  cases hw
  exact ⟨hf, nofun⟩

/-- it is written -/
example : Ex.isOk (dumpFile Ex.old 9 [] (.opaque 20 5) (.group [] [])) = true := by decide +kernel

/-- and loaded -/
example {file : Node} (h : dumpFile Ex.old 9 [] (.opaque 20 5) (.group [] []) = .ok file) :
    ∃ f0, ∀ f, f0 ≤ f → hickleLoad Ex.old f ⟨fun _ => some file, fun _ => .obj 0⟩ ⟨.name (ps "v3.hkl"), true, none⟩ (ps "/") true .absent = .ok (.opaque 20 5) :=
  (C64_violated Verif.Ex.textOk Ex.old_lists 20 5 (.inr ⟨rfl, _, rfl⟩) h (.name _ _ _ rfl) (by decide) _).1

end Verif.V3
