import Verif.Hickle.DumpEnds
import Verif.Props.C03
/-!
# C37 dump terminates on every object graph and writes each shared object once
-/
namespace Verif

variable {P : Nat → Prop}

/-- **C37, termination.**  For every finite object graph, cyclic or not, `dump` ends: as soon as the interpreter allows
`(D + 1) * n + 1` nested calls of `_dump` for `n` objects, it does not run out of stack.  `D` is the largest number of dimensions of an
array of strings or objects, and at least 1.  Nothing is assumed about the graph but that all parts of its objects exist. -/
theorem C37_terminates {a : DumpArgs} {s : Session} (hE : EnvOk P a.env) (hP : ProtOk P a.env) (hreg : RegInv P s.reg)
    (hw : ∀ (x : Addr) (o : Obj), a.heap[x]? = some o → ∀ b ∈ o.val.children, b < a.heap.length)
    (hcls : ∀ (x : Addr) (o : Obj), a.heap[x]? = some o → GoodCls P a.env o.cls) {os} (hos : a.options = some os)
    (ho : a.obj < a.heap.length) {D : Nat} (hD : ∀ (x : Addr) (o : Obj), a.heap[x]? = some o → o.val.depth ≤ D)
    (hf : (D + 1) * a.heap.length + 1 ≤ a.fuel) : (dumpTop a s).1 ≠ .error .recursionError :=
  dumpTop_ends hE hP hreg hw hcls hos ho hD hf

/-- with less stack it may run out: a chain of lists needs one call per list -/
example : Ex.raised (dumpTop { Ex.args C03.cyclic 2 with fuel := 1 } Ex.file0).1 = some .recursionError := by decide +kernel

/-! ### each object is stored once -/

/-- numbers, of Python or of numpy -/
def Val.isNumber : Val → Bool
  | .bool _ | .int _ | .float _ | .cplx .. | .np _ => true
  | _ => false

/-- lists, tuples, sets, dicts, arrays, sparse matrices and pickled objects -/
def Val.hasBody : Val → Bool
  | .seq _ | .set _ | .dict _ | .opaque .. | .arr .. | .sarr .. | .oarr .. | .masked .. | .sparse .. => true
  | _ => false

/-- node `m` holds object `b`, or is a reference to the node that does -/
def Refers (S : Store) (holds : NodeId → Addr → Prop) (m : NodeId) (b : Addr) : Prop :=
  holds m b ∨ ∃ nd t, S[m]? = some nd ∧ nd.body = .dset (.ref t) ∧ holds t b

/-- Node `n` contains object `b`: its items or entries in order, each of them contained or referred to, or all of them as an array
of numbers; or its pickled state; or its value. -/
def BodyOf (H : Heap) (S : Store) (holds : NodeId → Addr → Prop) (n : NodeId) (b : Addr) : Prop :=
  ∃ o nd, H[b]? = some o ∧ S[n]? = some nd ∧
    match o.val with
    | .seq items | .set items =>
      (∃ ls, nd.body = .group ls ∧ All2 (fun l x => Refers S holds l.2 x) ls items) ∨
      (∃ d, nd.body = .dset d ∧ (∀ t, d ≠ .ref t) ∧ ∀ x ∈ items, ∃ p : Obj, H[x]? = some p ∧ p.val.isNumber = true)
    | .dict es => ∃ ls, nd.body = .group ls ∧
      All2 (fun l e => Refers S holds l.2 e.2 ∨ ∃ t, Refers S holds l.2 t ∧ H[t]? = some ⟨.tuple, .seq [e.1, e.2]⟩) ls es
    | .opaque st _ => nd.body = .dset (.pickleObj o.cls st)
    | .masked d sh data mask => ∃ ls x y, nd.body = .group ls ∧ All2 (fun l b => Refers S holds l.2 b) ls [x, y] ∧
      H[x]? = some ⟨.ndarray, .arr d sh data⟩ ∧ H[y]? = some (maskObj sh mask)
    | .sparse d i p _ => ∃ ls x, nd.body = .group ls ∧ All2 (fun l b => Refers S holds l.2 b) ls [d, i, p, x]
    | .sarr .. | .oarr .. =>
      (∃ d, nd.body = .dset d ∧ ∀ t, d ≠ .ref t) ∨
      (∃ ls, nd.body = .group ls ∧ ∀ l ∈ ls, ∃ x, Refers S holds l.2 x)
    | _ => ∃ d, nd.body = .dset d ∧ ∀ t, d ≠ .ref t

theorem Child.refers {S : Store} {W : Rel} {m : NodeId} {b : Addr} {attrs} (h : Child S W m b attrs) : Refers S W m b := by
  obtain ⟨nd, h1, _, h3⟩ := h
  rcases h3 with h3 | ⟨t, h3, _, h5⟩
  · exact .inl h3
  · exact .inr ⟨nd, t, h1, h3, h5⟩

theorem Kids.each {base : Nat} {H : Heap} {S : Store} {W : Rel} {ls subs} (h : Kids base H S W ls subs) :
    ∀ l ∈ ls, ∃ x, Refers S W l.2 x := by
  induction h with
  | nil => simp
  | cons _ _ hc _ ih =>
    intro e he
    rcases List.mem_cons.1 he with rfl | he
    · exact ⟨_, hc.refers⟩
    · exact ih e he

theorem Kids.list {base : Nat} {H : Heap} {S : Store} {W : Rel} {ls subs} (h : Kids base H S W ls subs) :
    ∀ {i : Nat} {items : List Addr}, subs = listSubs i items → All2 (fun l x => Refers S W l.2 x) ls items := by
  induction h with
  | nil =>
    intro i items he
    cases items with
    | nil => exact .nil
    | cons x xs => simp [listSubs] at he
  | cons h0 h1 h2 _ ih =>
    intro i items he
    cases items with
    | nil => simp [listSubs] at he
    | cons x xs =>
      simp only [listSubs, List.cons.injEq, Except.ok.injEq] at he
      obtain ⟨rfl, he⟩ := he
      have h1' : _ = x := h1
      subst h1'
      exact .cons h2.refers (ih he)

theorem Kids.entries {env : Env} {base : Nat} {H : Heap} {S : Store} {W : Rel} {ls subs} (h : Kids base H S W ls subs) :
    ∀ {i : Nat} {es : List (Addr × Addr)}, subs = dictSubs env H i es →
      All2 (fun l e => Refers S W l.2 e.2 ∨ ∃ t, Refers S W l.2 t ∧ H[t]? = some ⟨.tuple, .seq [e.1, e.2]⟩) ls es := by
  induction h with
  | nil =>
    intro i items he
    cases items with
    | nil => exact .nil
    | cons x xs => simp [dictSubs] at he
  | @cons sb x m ls subs h0 h1 h2 _ ih =>
    intro i items he
    cases items with
    | nil => simp [dictSubs] at he
    | cons e es =>
      obtain ⟨k, v⟩ := e
      simp only [dictSubs, List.cons.injEq] at he
      refine .cons ?_ (ih he.2)
      have hs := he.1
      unfold dictSub at hs
      cases hk : H[k]? with
      | none => rw [hk] at hs; simp at hs
      | some o =>
        rw [hk] at hs
        simp only [] at hs
        cases hks : keySlot env o with
        | error e => rw [hks] at hs; simp at hs
        | ok r =>
          rw [hks] at hs
          cases r with
          | none =>
            simp at hs; subst hs
            exact .inr ⟨x, h2.refers, h1.2⟩
          | some r =>
            simp at hs; subst hs
            have : x = v := h1
            subst this
            exact .inl h2.refers

theorem mapM_cast_number {H : Heap} {d : DT} {items : List Addr} {vs} (h : items.mapM (castItem H d) = some vs) :
    ∀ x ∈ items, ∃ p : Obj, H[x]? = some p ∧ p.val.isNumber = true := by
  induction items generalizing vs with
  | nil => simp
  | cons a as ih =>
    simp only [List.mapM_cons, Option.bind_eq_bind, Option.bind_eq_some_iff, Option.pure_def, Option.some.injEq] at h
    obtain ⟨v, h1, vs', h2, rfl⟩ := h
    intro x hx
    rcases List.mem_cons.1 hx with rfl | hx
    · unfold castItem at h1
      split at h1
      · next o ho =>
        refine ⟨o, ho, ?_⟩
        cases he : exactNum o with
        | none => rw [he] at h1; simp at h1
        | some w =>
          unfold exactNum at he
          split at he <;> simp_all [Val.isNumber]
      · simp at h1
    · exact ih h2 x hx

/-- how instances of container classes are stored -/
theorem ObjOk.entry {env : Env} {o : Obj} (h : ObjOk env o) (hb : o.val.hasBody = true) : (expected env o.cls).2.memoise = true ∧ (expected env o.cls).2.fn ≠ .none := by
  obtain ⟨cl, v⟩ := o
  have key : ∀ l : List Cls, ∀ e, firstStd l = some e → (e.base = "list" ∨ e.base = "tuple" ∨ e.base = "set" ∨ e.base = "dict") → e.memoise = true ∧ e.fn ≠ .none := by
    intro l
    induction l with
    | nil => intro e he; simp [firstStd] at he
    | cons k ks ih =>
      intro e he hm
      simp only [firstStd] at he
      cases hk : stdReg k with
      | none => rw [hk] at he; exact ih e he hm
      | some pe =>
        rw [hk] at he
        simp at he
        subst he
        cases k <;> simp [stdReg] at hk <;> subst hk <;> simp at hm ⊢
  have main : ((expected env cl).2.base = "list" ∨ (expected env cl).2.base = "tuple" ∨ (expected env cl).2.base = "set" ∨ (expected env cl).2.base = "dict") ∨ (expected env cl).1 = .object →
      (expected env cl).2.memoise = true ∧ (expected env cl).2.fn ≠ .none := by
    unfold expected
    split
    · next e he =>
      intro h
      rcases h with h | h
      · exact key _ _ he h
      · simp at h
        subst h
        simp [Cls.mro, firstStd, stdReg] at he
    · simp
  cases cl with
  | user k =>
    apply main
    obtain ⟨_, h⟩ := h
    cases v <;> simp [Val.hasBody] at hb <;> simp only [] at h <;> try (exact h.elim)
    · rcases h.1 with h | h
      · exact .inl (.inl h)
      · exact .inl (.inr (.inl h))
    · exact .inl (.inr (.inr (.inl h.1)))
    · exact .inl (.inr (.inr (.inr h.1)))
    · exact .inr h
  | _ => cases v <;> simp [Val.hasBody] at hb <;> simp [ObjOk, NativeOk] at h <;> simp [expected, Cls.mro, firstStd, stdReg]

theorem NodeOk.body {env : Env} {base : Nat} {H : Heap} {S : Store} {W : Rel} {n : NodeId} {b : Addr} (h : NodeOk env base H S W n b)
    (hob : ∀ o : Obj, H[b]? = some o → ObjOk env o) : BodyOf H S W n b := by
  obtain ⟨o, nd, od, subs, h1, h2, _, h4, h5⟩ := h
  refine ⟨o, nd, h1, h2, ?_⟩
  have hent := (hob o h1).entry
  generalize (expected env o.cls).2.fn = fn at h4 hent
  cases h4 with
  | intBig hv => rw [hv]; exact ⟨_, h5, by simp⟩
  | int hv => rw [hv]; exact ⟨_, h5, by simp⟩
  | bool hv => rw [hv]; exact ⟨_, h5, by simp⟩
  | float hv => rw [hv]; exact ⟨_, h5, by simp⟩
  | cplx hv => rw [hv]; exact ⟨_, h5, by simp⟩
  | none =>
    cases hv : o.val <;> first | exact ⟨_, h5, by simp⟩ | (rw [hv] at hent; exact absurd rfl (hent rfl).2)
  | str hv => rw [hv]; exact ⟨_, h5, by simp⟩
  | bytes hv => rw [hv]; exact ⟨_, h5, by simp⟩
  | seqNil hv => rw [hv]; exact .inr ⟨_, h5, by simp, by simp⟩
  | setNil hv => rw [hv]; exact .inr ⟨_, h5, by simp, by simp⟩
  | seqVec hv _ hc => rw [hv]; exact .inr ⟨_, h5, by simp, mapM_cast_number hc⟩
  | setVec hv _ hc => rw [hv]; exact .inr ⟨_, h5, by simp, mapM_cast_number hc⟩
  | seqItems hv => rw [hv]; obtain ⟨ls, h6, h7⟩ := h5; exact .inl ⟨ls, h6, h7.list rfl⟩
  | setItems hv => rw [hv]; obtain ⟨ls, h6, h7⟩ := h5; exact .inl ⟨ls, h6, h7.list rfl⟩
  | dict hv => rw [hv]; obtain ⟨ls, h6, h7⟩ := h5; exact ⟨ls, h6, h7.entries rfl⟩
  | np hv => rw [hv]; exact ⟨_, h5, by simp⟩
  | arr hv => rw [hv]; exact ⟨_, h5, by simp⟩
  | sstr hv => rw [hv]; exact .inl ⟨_, h5, by simp⟩
  | rowsNil hr => cases hr with | str hv | obj hv => rw [hv]; exact .inl ⟨_, h5, by simp⟩
  | rows hr =>
    obtain ⟨ls, h6, h7⟩ := h5
    cases hr with | str hv | obj hv => rw [hv]; exact .inr ⟨ls, h6, h7.each⟩
  | oseq hl _ hq =>
    have key : (∃ d, nd.body = .dset d ∧ ∀ t, d ≠ .ref t) ∨ (∃ ls, nd.body = .group ls ∧ ∀ l ∈ ls, ∃ x, Refers S W l.2 x) := by
      cases hq with
      | nil => exact .inl ⟨_, h5, by simp⟩
      | vec => exact .inl ⟨_, h5, by simp⟩
      | items => obtain ⟨ls, h6, h7⟩ := h5; exact .inr ⟨ls, h6, h7.each⟩
    cases hl with | one hv | zero hv => rw [hv]; exact key
  | oone hv => rw [hv]; obtain ⟨ls, h6, h7⟩ := h5; exact .inr ⟨ls, h6, h7.each⟩
  | masked hv =>
    rw [hv]
    obtain ⟨ls, h6, h7⟩ := h5
    cases h7 with
    | @cons _ x _ _ _ _ k1 k2 h7 =>
      cases h7 with
      | @cons _ y _ _ _ _ k3 k4 h7 =>
        cases h7 with
        | nil =>
          obtain ⟨_, e1, e2⟩ := k1
          obtain ⟨_, e3, e4⟩ := k3
          cases e1; cases e3
          exact ⟨_, x, y, h6, .cons k2.refers (.cons k4.refers .nil), e2.2, e4.2⟩
  | sparse hv =>
    rw [hv]
    obtain ⟨ls, h6, h7⟩ := h5
    cases h7 with
    | cons _ k1 c1 h7 => cases h7 with
      | cons _ k2 c2 h7 => cases h7 with
        | cons _ k3 c3 h7 => cases h7 with
          | cons _ k4 c4 h7 => cases h7 with
            | nil =>
              have k1 := show _ = _ from k1
              have k2 := show _ = _ from k2
              have k3 := show _ = _ from k3
              subst k1 k2 k3
              exact ⟨_, _, h6, .cons c1.refers (.cons c2.refers (.cons c3.refers (.cons c4.refers .nil)))⟩
  | pickled hv => rw [hv]; exact h5

theorem NodeOk.links {env : Env} {base : Nat} {H : Heap} {S : Store} {W : Rel} {n : NodeId} {b : Addr} (h : NodeOk env base H S W n b)
    {ls} (hl : S.links n = some ls) : ∀ e ∈ ls, ∃ x, Refers S W e.2 x := by
  obtain ⟨o, nd, od, subs, h1, h2, _, h4, h5⟩ := h
  obtain ⟨nd', h6, h7⟩ := Store.links_eq hl
  rw [h2] at h6; cases h6
  cases od with
  | some d => simp only [] at h5; rw [h5] at h7; simp at h7
  | none =>
    obtain ⟨ls', h8, h9⟩ := h5
    rw [h7] at h8; cases h8
    exact h9.each

theorem TempOk.objOk {env : Env} {H : Heap} {base : Nat} {p : Addr} {o : Obj} (h : TempOk H base p o) (ho : H[p]? = some o) : ObjOk env o := by
  rcases h with ⟨k, v, rfl, _⟩ | ⟨d, ow, _, h⟩
  · rfl
  · generalize ow.val = v at h
    cases h with
    | leaf _ h2 h3 => rw [ho] at h2; cases h2; cases h3 <;> rfl
    | row _ h2 h3 => rw [ho] at h2; cases h2; rcases h3 with rfl | ⟨rfl, _⟩ <;> rfl
    | elems _ h2 => rw [ho] at h2; cases h2; rfl

/-- A path of the file holds object `a` of `H` so that every part is stored once: `holds` says which node contains which object.  `H'` are the
objects of `H`, the tuples `(key, value)` made for entries of dicts and the rows and parts made for arrays and matrices (`TempOk`). -/
structure StoredOnce (S : Store) (p : List PyStr) (H H' : Heap) (a : Addr) (holds : NodeId → Addr → Prop) : Prop where
  objects : H <+: H' ∧ ∀ (p : Addr) (o : Obj), H.length ≤ p → H'[p]? = some o → TempOk H' H.length p o
  /-- nodes contain the objects they hold -/
  body : ∀ n b, holds n b → BodyOf H' S holds n b
  /-- and no other object -/
  single : ∀ n b b', holds n b → holds n b' → b = b'
  /-- the root is there -/
  root : ∃ m, S.resolve 0 (p ++ [ps "data"]) = some m ∧ Refers S holds m a
  /-- every node below the root holds an object or refers to one that does -/
  below : ∀ q m, S.resolve 0 (p ++ ps "data" :: q) = some m → ∃ b, Refers S holds m b
  /-- every list, tuple, set, dict, array, sparse matrix and pickled object is contained in exactly one node -/
  once : ∀ b, Reach H a b → ∀ o : Obj, H[b]? = some o → o.val.hasBody = true → ∃ n, holds n b ∧ ∀ n', holds n' b → n' = n

/-- **C37, each object once.**  Whenever `dump` of an object of any finite graph, cyclic or not, returns, the file holds every
list, tuple, set, dict, array, sparse matrix and pickled object that is part of it exactly once, however often it is referenced.
(`NotBoxed`: the content of a 0-dimensional array of objects is not itself a list or array.) -/
theorem C37_once {a : DumpArgs} {s s' : Session} (hE : EnvOk P a.env) (hP : ProtOk P a.env) (hf : FileOk P s)
    (hob : ∀ (x : Addr) (o : Obj), a.heap[x]? = some o → GoodCls P a.env o.cls ∧ ObjOk a.env o ∧ NotBoxed a.heap o) (ho : OptsOk a s.store)
    (hd : dumpTop a s = (.ok (), s')) :
    ∃ H' holds, StoredOnce s'.store a.path a.heap H' a.obj holds := by
  obtain ⟨H', W, g, T, m, N, M', hs⟩ := dumpTop_stored hE hP hf.reg hf.tree (fun x o h => (hob x o h).1) ho hd
  obtain ⟨ls, hls, hdat, htab⟩ := hs.data
  obtain ⟨new, hnew⟩ := hs.dumped.pre
  have hob' : ∀ (x : Addr) (o : Obj), H'[x]? = some o → ObjOk a.env o := by
    intro x o h
    by_cases hx : x < a.heap.length
    · rw [← hnew, List.getElem?_append_left hx] at h; exact (hob x o h).2.1
    · exact (hs.dumped.temps x o (by omega) h).objOk h
  have hroot : s'.store.resolve 0 (a.path ++ [ps "data"]) = some m := by
    rw [Store.resolve_append, hs.res]
    have hdat' : Assoc.get? ls (ps "data") = some m := hdat
    simp [Store.resolve, hls, hdat']
  refine ⟨H', W, ?_, ?_, hs.dumped.uniq, ⟨m, hroot, hs.dumped.root.refers⟩, ?_, ?_⟩
  · exact ⟨hs.dumped.pre, hs.dumped.temps⟩
  · exact fun n b hw => (hs.dumped.nodes n b hw).body (hob' b)
  · have : ∀ q n, (∃ b, Refers s'.store W n b) → ∀ m, s'.store.resolve n q = some m → ∃ b, Refers s'.store W m b := by
      intro q
      induction q with
      | nil => intro n hn m h; simp [Store.resolve] at h; subst h; exact hn
      | cons x q ih =>
        intro n hn m h
        simp only [Store.resolve] at h
        cases hl : s'.store.links n with
        | none => rw [hl] at h; simp at h
        | some ls =>
          rw [hl] at h
          simp only [] at h
          cases hx : Assoc.get? ls x with
          | none => rw [hx] at h; simp at h
          | some k =>
            rw [hx] at h
            refine ih k ?_ m h
            obtain ⟨b, hb | ⟨nd, t, h1, h2, _⟩⟩ := hn
            · exact (hs.dumped.nodes n b hb).links hl _ (Assoc.get?_mem hx)
            · obtain ⟨nd', h3, h4⟩ := Store.links_eq hl
              rw [h1] at h3; cases h3
              rw [h2] at h4; simp at h4
    intro q k hk
    rw [show a.path ++ ps "data" :: q = (a.path ++ [ps "data"]) ++ q by simp, Store.resolve_append, hroot] at hk
    exact this q m ⟨_, hs.dumped.root.refers⟩ k hk
  · have hreach : ∀ b, Reach a.heap a.obj b → (∃ n, W n b) ∨ ∀ o : Obj, a.heap[b]? = some o → o.val.hasBody = false ∧ o.val.children = [] := by
      intro b hb
      induction hb with
      | here => obtain ⟨k, hw, _⟩ := hs.dumped.root.node; exact .inl ⟨k, hw⟩
      | @into c d o _ h1 h2 ih =>
        rcases ih with ⟨n, hw⟩ | ih
        · have h1' := getElem?_prefix hs.dumped.pre h1
          cases (hs.dumped.nodes n c hw).parts hs.dumped.nodes h1' (hob c o h1).2.1 ((hob c o h1).2.2.mono hs.dumped.pre) d h2 with
          | node k' hw' _ => exact .inl ⟨k', hw'⟩
          | name q nm kbt hq hks _ =>
            refine .inr fun o2 ho2 => ?_
            rw [getElem?_prefix hs.dumped.pre ho2] at hq; cases hq
            refine ⟨?_, keySlot_atom hks⟩
            unfold keySlot at hks
            cases hv : q.val <;> first | rfl | (simp [hv, reprKey] at hks; split at hks <;> simp at hks)
          | num q v hq hv =>
            refine .inr fun o2 ho2 => ?_
            rw [getElem?_prefix hs.dumped.pre ho2] at hq; cases hq
            refine ⟨?_, exactNum_children hv⟩
            unfold exactNum at hv
            split at hv <;> simp_all [Val.hasBody]
        · rw [(ih o h1).2] at h2; simp at h2
    intro b hb o h1 h2
    rcases hreach b hb with ⟨n, hw⟩ | h
    · exact ⟨n, hw, fun n' hw' => hs.dumped.one n' n b o hw' hw (getElem?_prefix hs.dumped.pre h1) (((hob b o h1).2.1.entry h2).1)⟩
    · rw [(h o h1).1] at h2; simp at h2

/-- `l = [None, [], l]`: the hypotheses of both theorems are met -/
example : (dumpTop { Ex.args C03.cyclic 2 with fuel := 11 } Ex.file0).1 ≠ .error .recursionError := by
  refine C37_terminates (P := fun _ => True) (os := []) Ex.envOk Ex.protOk Ex.file0_ok.reg ?_ ?_ rfl (by decide) (D := 1) ?_ (by decide)
  · intro x o h
    have hn : ∀ o ∈ C03.cyclic, ∀ b ∈ o.val.children, b < C03.cyclic.length := by decide
    exact hn o (List.mem_of_getElem? h)
  · intro x o h
    have hn : ∀ o ∈ C03.cyclic, NativeOk o = true := by decide +kernel
    have := hn o (List.mem_of_getElem? h)
    obtain ⟨cl, v⟩ := o
    exact goodCls_native this
  · intro x o h
    have hn : ∀ o ∈ C03.cyclic, o.val.depth ≤ 1 := by decide
    exact hn o (List.mem_of_getElem? h)

example : ∃ H' holds, StoredOnce (dumpTop (Ex.args C03.cyclic 2) Ex.file0).2.store [] C03.cyclic H' 2 holds := by
  obtain ⟨⟨⟩, hd⟩ := Ex.eq_of_isOk (r := dumpTop (Ex.args C03.cyclic 2) Ex.file0) (by decide +kernel)
  refine C37_once (P := fun _ => True) Ex.envOk Ex.protOk Ex.file0_ok ?_ ?_ hd
  · intro x o h
    have hn : ∀ o ∈ C03.cyclic, NativeOk o = true := by decide +kernel
    have := hn o (List.mem_of_getElem? h)
    obtain ⟨cl, v⟩ := o
    have hb : ∀ o ∈ C03.cyclic, o.val.isOarr = false := by decide
    exact ⟨goodCls_native this, objOk_native this, .of_not (hb _ (List.mem_of_getElem? h))⟩
  · refine ⟨fun os h => ?_, fun g at' h1 h2 => ?_⟩
    · simp at h; subst h; simp
    · simp [Store.resolve] at h1; subst h1
      have : Ex.file0.store.attrs 0 = some [] := rfl
      rw [this] at h2; simp at h2; subst h2
      simp [attrOptions, attrItems]

end Verif
