import Verif.Props.C09
/-!
# C12 Instances of subclasses of built-in types survive

True of the code for subclasses other than of `str` whose constructor accepts what the constructor of the built-in
class accepts (`UserOk`): `C12_partial`.  The counterexamples to the full property are a subclass of `str` that adds
nothing at all (`C12_violated_str`), `collections.defaultdict` (`C12_violated_defaultdict`) and a named tuple
(`C12_violated_namedtuple`).
-/
namespace Verif

variable {P : Nat → Prop}

/-- **C12, partial.**  An instance of any class of the program, at the end of any path, loads as a copy of the same class.
Missing: subclasses of `str`, and subclasses with another constructor signature than their built-in base class. -/
theorem C12_partial {a : DumpArgs} {s s' : Session} (h : GoodDump P a s s') {π : List Step} {c : Addr} {k : Nat} {v : Val}
    (hf : follow a.heap a.obj π = some c) (hc : a.heap[c]? = some ⟨.user k, v⟩) :
    Loads P a.env s'.store a.path fun L b => ∃ (x : Addr) (v' : Val), follow L b π = some x ∧ L[x]? = some ⟨.user k, v'⟩ ∧ Copy a.heap L x c ∧
      (v.isAtom = true → v' = v) := by
  refine h.loads.imp fun L b hl => ?_
  obtain ⟨⟨R, N, Q, hl⟩, _⟩ := hl
  rcases hl.follow π (.inl hl.1) with ⟨_, h2⟩ | ⟨x, z, h1, h2, h3⟩
  · rw [hf] at h2; simp at h2
  · rw [hf] at h2; simp at h2; subst h2
    rcases hl.nonum h3 (by simp [numDt, hc, exactNum]) with hR | hQ
    · obtain ⟨⟨cl0, val⟩, ⟨cl', val'⟩, e1, e2, e3, e4⟩ := hl.2.1 x c hR
      rw [hc] at e1; simp at e1; obtain ⟨rfl, rfl⟩ := e1
      simp only at e3 e4
      subst e3
      refine ⟨x, val', h1, e2, ⟨R, N, Q, hR, hl.2⟩, fun ha => ?_⟩
      have := hl.atom (.inl hR) hc ha
      rw [e2] at this; simpa using this
    · obtain ⟨o, e1, _, e3⟩ := hl.2.2.2.1 x c hQ
      rw [hc] at e1; simp at e1; subst e1
      simp [Obj.nameKey, Obj.plainKey] at e3

/-- object 10 of `Ex.heap` is an instance of a subclass of `list` -/
example : Loads (fun _ => True) Ex.env Ex.file1.store [ps "run", ps "a"] fun L b =>
    ∃ (x : Addr) (v : Val), follow L b [.item 6] = some x ∧ L[x]? = some ⟨.user 1, v⟩ ∧ Copy Ex.heap L x 10 :=
  (C12_partial (π := [.item 6]) (c := 10) Ex.good (by decide +kernel) rfl).imp fun _ _ ⟨x, v, h1, h2, h3, _⟩ => ⟨x, v, h1, h2, h3⟩

/-- Three classes: `class MyStr(str): pass`, `collections.defaultdict`, a named tuple with two fields.
What their constructors do with the arguments `load` calls them with:
`MyStr(numpy.array([[b'a', b'b']]))` is the text of the array, `"[[b'a' b'b']]"`;
`defaultdict([('k', None)])` raises `TypeError: first argument must be callable or None`;
`Pair([1, 2])` raises `TypeError: missing 1 required positional argument`. -/
def C12.cls : Nat → UserCls
  | 0 => { name := "MyStr", origin := .pkg "shapes", bases := [.str, .object], picklable := true, importable := true,
           ctor := fun
             | .str s => .ok (.str s)
             | .chars b => .ok (.str (ps "[[" ++ (b.flatMap fun c => ps "b'" ++ [c.toNat] ++ ps "' ").dropLast ++ ps "]]"))
             | _ => .error .typeError }
  | 1 => { name := "defaultdict", origin := .pkg "collections", bases := [.dict, .object], picklable := true, importable := true,
           ctor := fun _ => .error .typeError }
  | _ => { name := "Pair", origin := .pkg "shapes", bases := [.tuple, .object], picklable := true, importable := true,
           ctor := fun _ => .error .typeError }

def C12.env : Env := { Ex.env with u := C12.cls }

/-- **C12 is violated.**  `dump(MyStr('ab'), f)` returns, `load(f)` returns `MyStr("[[b'a' b'b']]")`. -/
theorem C12_violated_str :
    ∃ s' s'' L, dumpTop { env := C12.env, heap := [⟨.user 0, .str (ps "ab")⟩], obj := 0, path := [], fuel := 100 } Ex.file0 = (.ok (), s') ∧
      loadTop ⟨C12.env, [], id, 100⟩ s' = (.ok (L, 1), s'') ∧ L[1]? = some ⟨.user 0, .str (ps "[[b'a' b'b']]")⟩ := by
  obtain ⟨s', s'', h1, h2⟩ := Ex.of_roundTrip (env := C12.env) (H := [⟨.user 0, .str (ps "ab")⟩]) (obj := 0)
    (L := [⟨.tuple, .seq []⟩, ⟨.user 0, .str (ps "[[b'a' b'b']]")⟩]) (b := 1) (by decide +kernel)
  exact ⟨s', s'', _, h1, h2, rfl⟩

/-- **C12 is violated by every subclass of `str` that makes of an array what `str` makes of it, its text.**  The class is not itself called `str`.
dump writes the name of the class as the kind of string, and with this name load does not decode the characters: the constructor is called with
an array.  So whatever the file, the process and the other attributes are, load gives the value the constructor makes of
the array and no other; it is the value that was dumped only if the constructor makes that of the array. -/
theorem C12_violated_strs {env : Env} {k : Nat} {s : PyStr} {b : Bytes} (hn : (env.u k).name ≠ "str") (hb : utf8Encode s = some b) :
    (∀ c : DCtx, c.env = env → ∀ h parent name, createListlike c h ⟨.user k, .str s⟩ parent name = (do
      let n ← mkDset c.kw parent name (.chars b)
      setAttr n "str_type" (.bytes (env.u k).name)
      pure (n, []))) ∧
    ∀ attrs t x t', Assoc.get? attrs "str_type" = some (.bytes (env.u k).name) → loadList env (.chars b) attrs (.user k) t = (.ok x, t') →
      ∃ v, (env.u k).ctor (.chars b) = .ok v ∧ t'.heap[x]? = some ⟨.user k, v⟩ := by
  refine ⟨fun c hc h parent name => by subst hc; simp only [createListlike, hb, Cls.name], fun attrs t x t' ha hl => ?_⟩
  have hne : ¬ Assoc.get? attrs "str_type" = some (.bytes "str") := by rw [ha]; simpa using hn
  simp only [loadList, hne, if_false, construct] at hl
  cases hc : (env.u k).ctor (.chars b) with
  | error e => rw [hc] at hl; cases hl
  | ok v =>
    rw [hc] at hl
    have hl : ((.ok t.heap.length, { t with heap := t.heap ++ [⟨.user k, v⟩] }) : Except PyErr Addr × LState) = (.ok x, t') := hl
    cases hl
    exact ⟨v, rfl, by simp⟩

/-- `MyStr('ab')`: the constructor gives another value -/
example : (C12.env.u 0).name ≠ "str" ∧ utf8Encode (ps "ab") = some [97, 98] ∧
    (match (C12.env.u 0).ctor (.chars [97, 98]) with | .ok v => decide (v = .str (ps "[[b'a' b'b']]")) | .error _ => false) = true := by
  decide +kernel

/-- dump returns and the following load raises -/
def C12.unloadable (H : Heap) (obj : Addr) : Prop :=
  ∃ s' s'', dumpTop { env := C12.env, heap := H, obj := obj, path := [], fuel := 100 } Ex.file0 = (.ok (), s') ∧
    loadTop ⟨C12.env, [], id, 100⟩ s' = (.error .valueError, s'')

theorem C12.unloadable_of {H : Heap} {obj : Addr}
    (h1 : Ex.isOk (dumpTop { env := C12.env, heap := H, obj := obj, path := [], fuel := 100 } Ex.file0).1 = true)
    (h2 : Ex.raised (loadTop ⟨C12.env, [], id, 100⟩ (dumpTop { env := C12.env, heap := H, obj := obj, path := [], fuel := 100 } Ex.file0).2).1 = some .valueError) :
    C12.unloadable H obj := by
  obtain ⟨⟨⟩, h1⟩ := Ex.eq_of_isOk h1
  exact ⟨_, _, h1, Ex.eq_of_raised h2⟩

/-- **C12 is violated.**  `dump(defaultdict(...), f)` returns, `load(f)` raises. -/
theorem C12_violated_defaultdict : C12.unloadable [⟨.str, .str (ps "k")⟩, ⟨.noneType, .none⟩, ⟨.user 1, .dict [(0, 1)]⟩] 2 :=
  C12.unloadable_of (by decide +kernel) (by decide +kernel)

/-- **C12 is violated.**  `dump(Pair('k', None), f)` returns, `load(f)` raises. -/
theorem C12_violated_namedtuple : C12.unloadable [⟨.str, .str (ps "k")⟩, ⟨.noneType, .none⟩, ⟨.user 2, .seq [0, 1]⟩] 2 :=
  C12.unloadable_of (by decide +kernel) (by decide +kernel)

/-- **C12, C08 and C03 are violated.**  `dump({MyStr('k'): None}, f)` returns, `load(f)` raises: the class of the key is
written as its type, and the reader knows the plain types only.  `numpy.str_` is such a class. -/
theorem C12_violated_key : C12.unloadable [⟨.user 0, .str (ps "k")⟩, ⟨.noneType, .none⟩, ⟨.dict, .dict [(0, 1)]⟩] 2 :=
  C12.unloadable_of (by decide +kernel) (by decide +kernel)

/-- **C12, C08 and C03 are violated by every such key.**  The key is an instance of a subclass of `str` without slashes, or of a subclass of
`bytes` that is valid UTF-8 without slashes, and the class does not happen to have the name of one of the types the reader knows.  Then dump
accepts the key and writes the entry under the text of the key, and a load that comes to this entry raises `ValueError`: whatever
the other entries are, wherever the entry is in the dict and whatever its value is. -/
theorem C12_violated_keys {env : Env} {H : Heap} {k v : Addr} {n i : Nat} {val : Val} (hk : H[k]? = some ⟨.user n, val⟩)
    (hv : (∃ s, val = .str s ∧ 47 ∉ s ∧ 92 ∉ s) ∨ ∃ b s, val = .bytes b ∧ (∀ c ∈ b, c.toNat ≠ 47) ∧ utf8Decode b = some s)
    (hn : (env.u n).name ∉ ["str", "bytes", "key_value", "float", "bool", "int", "complex", "NoneType", "tuple"]) :
    ∃ sub, dictSub env H i k v = .ok sub ∧ ("key_base_type", .bytes (env.u n).name) ∈ sub.attrs ∧
      ∀ content name a attrs s, Assoc.get? attrs "key_base_type" = some (.bytes (env.u n).name) →
        dictAppend env content name a attrs s = (.error .valueError, s) := by
  have hslot : ∃ nm, keySlot env ⟨.user n, val⟩ = .ok (some (nm, (env.u n).name)) := by
    rcases hv with ⟨s, rfl, h1, h2⟩ | ⟨b, s, rfl, h1, h2⟩
    · have hs : strSlash s = false := by
        simp only [strSlash, List.any_eq_false]
        intro c hc
        have e1 : c ≠ 47 := by rintro rfl; exact h1 hc
        have e2 : c ≠ 92 := by rintro rfl; exact h2 hc
        simp [e1, e2]
      exact ⟨_, by simp only [keySlot, hs, Cls.name]; rfl⟩
    · have hs : byteSlash b = false := by
        simp only [byteSlash, List.any_eq_false]
        intro c hc
        simpa using h1 c hc
      exact ⟨_, by simp only [keySlot, hs, h2, Cls.name]; rfl⟩
  obtain ⟨nm, hslot⟩ := hslot
  refine ⟨⟨nm, .addr v, [("key_idx", .int i), ("key_base_type", .bytes (env.u n).name)]⟩, by simp only [dictSub, hk, hslot], by simp, ?_⟩
  intro content name a attrs s ha
  simp only [List.mem_cons, List.not_mem_nil, or_false, not_or] at hn
  obtain ⟨n1, n2, n3, n4, n5, n6, n7, n8, n9⟩ := hn
  have hl : loadKey env (env.u n).name name = .error .valueError := by
    simp only [loadKey, n1, n2, n3, n4, n5, n6, n7, n8, n9, if_false]
  simp only [dictAppend, ha]
  rw [M.bind_of_ok (show (pure (env.u n).name : LM String) s = (.ok (env.u n).name, s) from rfl), hl]
  rfl

/-- `MyStr('k')` as a key -/
example : ∃ sub, dictSub C12.env [⟨.user 0, .str (ps "k")⟩, ⟨.noneType, .none⟩] 0 0 1 = .ok sub ∧
    ("key_base_type", .bytes "MyStr") ∈ sub.attrs :=
  have ⟨sub, h1, h2, _⟩ := C12_violated_keys (env := C12.env) (H := [⟨.user 0, .str (ps "k")⟩, ⟨.noneType, .none⟩]) (k := 0) (v := 1) (n := 0) (i := 0)
    rfl (.inl ⟨_, rfl, by decide, by decide⟩) (by decide)
  ⟨sub, h1, h2⟩

/-- `{MyStr('k/'): None}` -/
def C12.slash : Heap := [⟨.user 0, .str (ps "k/")⟩, ⟨.noneType, .none⟩, ⟨.dict, .dict [(0, 1)]⟩]

/-- the same key can be loaded if its text has a slash: the entry is then stored as a pair, and the key comes back with
the text of an array as its value, as in `C12_violated_str` -/
example : ¬ C12.unloadable C12.slash 2 := by
  intro ⟨s', s'', h1, h2⟩
  have h : Ex.isOk (loadTop ⟨C12.env, [], id, 100⟩ (dumpTop { env := C12.env, heap := C12.slash, obj := 2, path := [], fuel := 100 } Ex.file0).2).1 = true := by
    decide +kernel
  rw [h1, h2] at h
  simp [Ex.isOk] at h

end Verif
