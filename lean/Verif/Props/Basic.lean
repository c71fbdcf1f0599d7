import Verif.Hickle.History
/-!
# Vocabulary of the property theorems
-/
namespace Verif

/-- A call of `dump` that returned.  `s`: the open file before and the state of the process, `s'`: after.
The object graph is acyclic and one the round trip is claimed for. -/
structure GoodDump (P : Nat → Prop) (a : DumpArgs) (s s' : Session) : Prop where
  /-- loader modules do not meddle with the built-in classes -/
  env : EnvOk P a.env
  prot : ProtOk P a.env
  /-- no call is in progress for the file, which may hold anything but version 3 data -/
  file : FileOk P s
  graph : GoodHeap P a.env a.heap
  acyclic : ∃ rk, Ranked a.heap rk
  obj : a.obj < a.heap.length
  opts : OptsOk a s.store
  returns : dumpTop a s = (.ok (), s')

/-- Loading path `p` of the file `S` returns an object `b` of a heap `L` such that `φ L b`: in this
process or any other in which no call is in progress for the file, in every order in which HDF5 lists
the members of groups, with the file open for reading or for writing, provided the interpreter allows
enough recursion.  The file is left as it is. -/
def Loads (P : Nat → Prop) (env : Env) (S : Store) (p : List PyStr) (φ : Heap → Addr → Prop) : Prop :=
  ∃ depth, ∀ (s : Session), s.store = S → s.ldr = false → s.ref = false → RegInv P s.reg →
    ∀ order : List (PyStr × NodeId) → List (PyStr × NodeId), (∀ l, (order l).Perm l) → ∀ fuel, depth ≤ fuel →
      ∃ L b s', loadTop ⟨env, p, order, fuel⟩ s = (.ok (L, b), s') ∧ φ L b ∧ s'.store = S

variable {P : Nat → Prop}

theorem Loads.imp {env : Env} {S : Store} {p} {φ ψ : Heap → Addr → Prop} (h : ∀ L b, φ L b → ψ L b) (hl : Loads P env S p φ) : Loads P env S p ψ := by
  obtain ⟨d, hl⟩ := hl
  refine ⟨d, fun s h1 h2 h3 h4 order h5 fuel h6 => ?_⟩
  obtain ⟨L, b, s', e1, e2, e3⟩ := hl s h1 h2 h3 h4 order h5 fuel h6
  exact ⟨L, b, s', e1, h L b e2, e3⟩

/-- the loaded object can be dumped again -/
def Redumpable (P : Nat → Prop) (env : Env) (L : Heap) (b : Addr) : Prop := GoodHeap P env L ∧ Ranked L id ∧ b < L.length

theorem Stored.loads {env : Env} {S : Store} {p H a} (h : Stored env S p H a) (hE : EnvOk P env) (hg : GoodHeap P env H)
    (hr : ∃ rk, Ranked H rk) (ha : a < H.length) (hv : NoV3 S) : Loads P env S p fun L b => Copy H L b a ∧ Redumpable P env L b := by
  obtain ⟨rk, hr⟩ := hr
  obtain ⟨d, hd⟩ := h.load hE hg hr ha hv
  refine ⟨d, ?_⟩
  rintro s rfl hl hf hreg order hord fuel hfuel
  obtain ⟨L, b, s', e1, e2, e3, _, e4⟩ := hd s rfl hl hf hreg order hord fuel hfuel
  exact ⟨L, b, s', e1, ⟨e2, e4⟩, by rw [e3]⟩

theorem GoodDump.stored {a : DumpArgs} {s s' : Session} (h : GoodDump P a s s') : Stored a.env s'.store a.path a.heap a.obj :=
  dumpTop_stored h.env h.prot h.file.reg h.file.tree (fun x o hx => (h.graph.cls x o hx).1) h.opts h.returns

theorem GoodDump.file' {a : DumpArgs} {s s' : Session} (h : GoodDump P a s s') : FileOk P s' := by
  have := (Op.chg (o := .dump a) ⟨h.env, h.prot⟩ h.file).1
  simpa only [Op.run, h.returns] using this

theorem GoodDump.loads {a : DumpArgs} {s s' : Session} (h : GoodDump P a s s') :
    Loads P a.env s'.store a.path fun L b => Copy a.heap L b a.obj ∧ Redumpable P a.env L b :=
  h.stored.loads h.env h.graph h.acyclic h.obj h.file'.noV3

end Verif
