import Verif.Props.Parts
import Verif.Props.C30
import Verif.Props.Examples
/-!
# C03 Whatever dump accepts, load can read back
-/
namespace Verif

variable {P : Nat → Prop}

/-- **C03 (partial).**  What dump has accepted can be loaded, if it is built from the classes and values the round trip is claimed
for and has no cycles.  What is missing from C03: cyclic objects, see `C03_violated`, and the subclass instances and
dict keys for which `C12_violated_defaultdict`, `C12_violated_namedtuple` and `C08` show that load raises. -/
theorem C03_partial {a : DumpArgs} {s s' : Session} (h : GoodDump P a s s') : Loads P a.env s'.store a.path fun _ _ => True :=
  h.loads.imp fun _ _ _ => trivial

/-- `y` is an item, element, key or value of `x` -/
def IsPart (H : Heap) (y x : Addr) : Prop := ∃ o : Obj, H[x]? = some o ∧ y ∈ o.val.children

/-- object `x` contains itself, directly or indirectly -/
def OnCycle (H : Heap) (x : Addr) : Prop := Relation.TransGen (IsPart H) x x

theorem Inside.first {S : Store} {n m : NodeId} (h : Inside S n m) : ∃ k, Leads S n k ∧ Under S k m := by
  induction h with
  | single h => exact ⟨_, h, .here⟩
  | tail _ hl ih =>
    obtain ⟨k, h1, h2⟩ := ih
    exact ⟨k, h1, .down h2 hl⟩

theorem Under.cases {S : Store} {n m : NodeId} (h : Under S n m) : m = n ∨ Inside S n m := by
  induction h with
  | here => exact .inl rfl
  | down _ hl ih =>
    rcases ih with rfl | ih
    · exact .inr (.single hl)
    · exact .inr (.tail ih hl)

theorem acc_irrefl {α : Type} {r : α → α → Prop} {x : α} (h : Acc r x) : ¬ Relation.TransGen r x x := by
  have h2 := h.transGen
  intro hx
  have : ∀ y, Acc (Relation.TransGen r) y → Relation.TransGen r y y → False := by
    intro y hy
    induction hy with
    | intro y _ ih => exact fun hyy => ih y hyy hyy
  exact this x h2 hx

/-- If everything below the nodes of a dump can be read, the dumped object has no cycles. -/
theorem Dumped.acyclic {env : Env} {H0 H : Heap} {S : Store} {W : Rel} {m : NodeId} {a : Addr} (hd : Dumped env H0 H S W m a)
    (hob : ∀ (x : Addr) (o : Obj), H0[x]? = some o → ObjOk env o ∧ NotBoxed H0 o) {c : LCtx} (hc : c.store = S) {n : NodeId} (hr : ReadAll c n) :
    ∀ k, Under S n k → ∀ x, x < H0.length → W k x → Acc (IsPart H0) x := by
  induction hr with
  | @intro n _ hall ih =>
    intro k hk x hx hw
    rcases hk.cases with rfl | hk
    · refine ⟨_, fun y ⟨o, ho, hy⟩ => ?_⟩
      have ho' := getElem?_prefix hd.pre ho
      cases (hd.nodes k x hw).parts hd.nodes ho' (hob x o ho).1 ((hob x o ho).2.mono hd.pre) y hy with
      | node k' hw' hin =>
        obtain ⟨j, h1, h2⟩ := hin.first
        by_cases hy0 : y < H0.length
        · exact ih j (by rw [hc]; exact h1) k' h2 y hy0 hw'
        · exact ⟨_, fun z ⟨o2, ho2, _⟩ => by rw [List.getElem?_eq_none (by omega)] at ho2; simp at ho2⟩
      | name q nm kbt hq hks _ =>
        refine ⟨_, fun z ⟨o2, ho2, hz⟩ => ?_⟩
        rw [getElem?_prefix hd.pre ho2] at hq; cases hq
        rw [keySlot_atom hks] at hz; simp at hz
      | num q v hq hv =>
        refine ⟨_, fun z ⟨o2, ho2, hz⟩ => ?_⟩
        rw [getElem?_prefix hd.pre ho2] at hq; cases hq
        rw [exactNum_children hv] at hz; simp at hz
    · obtain ⟨j, h1, h2⟩ := hk.first
      exact ih j (by rw [hc]; exact h1) k h2 x hx hw

/-- **C03 is violated by every object that contains itself.**  If a dump of such an object returns, then no load from that path
ever returns: whatever the interpreter's recursion limit, the order of links, the state of the process, and also if classes
have changed. -/
theorem C03_violated {a : DumpArgs} {s s' : Session} (hE : EnvOk P a.env) (hP : ProtOk P a.env) (hf : FileOk P s)
    (hob : ∀ (x : Addr) (o : Obj), a.heap[x]? = some o → GoodCls P a.env o.cls ∧ ObjOk a.env o ∧ NotBoxed a.heap o) (ho : OptsOk a s.store)
    (hobj : a.obj < a.heap.length) (hd : dumpTop a s = (.ok (), s')) {x : Addr} (hr : Reach a.heap a.obj x) (hx : OnCycle a.heap x)
    {b : LoadArgs} (hb : b.path = a.path) (hord : ∀ l, (b.order l).Perm l) {t t' : Session} (ht : t.store = s'.store) :
    ∀ r, loadTop b t ≠ (.ok r, t') := by
  intro r hl
  obtain ⟨H', W, g, T, m, N, M', hs⟩ := dumpTop_stored hE hP hf.reg hf.tree (fun x o h => (hob x o h).1) ho hd
  obtain ⟨ls, hls, hdat, htab⟩ := hs.data
  have hst : t'.store = s'.store := by
    have := C30_with_table b t (g := g) (ls := ls) (by rw [ht, hb]; exact hs.res) (by rw [ht]; exact hls) (by rw [htab]; rfl)
    rw [hl] at this; exact this.trans ht
  obtain ⟨g2, ls2, d, mgr, h1, h2, h3, h4⟩ := loadTop_all hord hl
  rw [ht, hb, hs.res] at h2; cases h2
  rw [hst, hls] at h1; cases h1
  rw [hdat] at h3; cases h3
  rw [hst] at h4
  obtain ⟨k, hw, hu⟩ := hs.dumped.root.node
  have hacc := hs.dumped.acyclic (fun x o h => (hob x o h).2) rfl h4 k hu a.obj hobj hw
  have : ∀ y, Reach a.heap a.obj y → Acc (IsPart a.heap) y := by
    intro y hy
    induction hy with
    | here => exact hacc
    | into _ h1 h2 ih => exact ih.inv ⟨_, h1, h2⟩
  exact acc_irrefl (this x hr) hx

/-- `l = [None, [], l]` and a dictionary with itself as a value: dump accepts both -/
def C03.cyclic : Heap := [⟨.noneType, .none⟩, ⟨.list, .seq []⟩, ⟨.list, .seq [0, 1, 2]⟩, ⟨.str, .str (ps "me")⟩, ⟨.dict, .dict [(3, 4)]⟩]

example : Ex.isOk (dumpTop (Ex.args C03.cyclic 2) Ex.file0).1 = true ∧ Ex.isOk (dumpTop (Ex.args C03.cyclic 4) Ex.file0).1 = true := by decide +kernel

/-- and load raises `ValueError`, from `RecursionError` -/
example : Ex.raised (loadTop ⟨Ex.env, [], id, 200⟩ (dumpTop (Ex.args C03.cyclic 2) Ex.file0).2).1 = some .valueError := by decide +kernel

/-- the hypotheses of `C03_violated` are met -/
example : ∀ fuel r t', loadTop ⟨Ex.env, [], id, fuel⟩ (dumpTop (Ex.args C03.cyclic 2) Ex.file0).2 ≠ (.ok r, t') := by
  intro fuel r t'
  obtain ⟨⟨⟩, hd⟩ := Ex.eq_of_isOk (r := dumpTop (Ex.args C03.cyclic 2) Ex.file0) (by decide +kernel)
  refine C03_violated (P := fun _ => True) Ex.envOk Ex.protOk Ex.file0_ok ?_ ?_ (by decide) hd (x := 2) .here ?_ rfl (fun l => List.Perm.refl _) rfl r
  · intro x o h
    have hn : ∀ o ∈ C03.cyclic, NativeOk o = true := by decide +kernel
    have := hn o (List.mem_of_getElem? h)
    obtain ⟨cl, v⟩ := o
    have hb : ∀ o ∈ C03.cyclic, o.val.isOarr = false := by decide
    exact ⟨goodCls_native this, objOk_native this, .of_not (hb _ (List.mem_of_getElem? h))⟩
  · refine ⟨fun os h => ?_, fun g at' h1 h2 => ?_⟩
    · simp at h; subst h; simp
    · simp [Store.resolve] at h1; subst h1
      have : Ex.file0.store.attrs 0 = some [] := rfl
      rw [this] at h2; simp at h2; subst h2
      simp [attrOptions, attrItems]
  · exact .single ⟨_, rfl, by simp [Val.children]⟩

end Verif
