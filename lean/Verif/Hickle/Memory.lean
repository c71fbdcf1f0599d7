import Verif.Hickle.DumpState
import Verif.Hickle.Top
/-!
# `_dump` with addresses that are used again

`Verif/Hickle/Dump.lean` identifies an object by its number, which is never given to another object.  Here objects have a memory
address that may be given to another object once they have been released, the memo is keyed by that address, as in
hickle.py:103-104 and 139-140, and the memory manager may choose any free address.
-/
namespace Verif

/-- State of a running dump.  `d.memo` is not used. -/
structure AState where
  d : DState
  /-- `id(obj)` of every object made so far -/
  addr : List Nat
  /-- objects that have been released -/
  dead : List Addr := []
  /-- `memo`: address ↦ node and object (hickle.py:140) -/
  memo : List (Nat × NodeId × Addr) := []

abbrev AM := M AState

namespace AState

/-- the object exists and has not been released -/
def Live (s : AState) (a : Addr) : Prop := a < s.d.heap.length ∧ a ∉ s.dead

/-- The memory manager: which address a new object gets.  Never the address of an object in use. -/
def Fresh (alloc : AState → Nat) : Prop := ∀ s a, Live s a → s.addr[a]? ≠ some (alloc s)

end AState

/-- the steps of the dump that do not look at addresses -/
def onD {α : Type} (x : DM α) : AM α := fun s => ((x s.d).1, { s with d := (x s.d).2 })

/-- the objects made for a sub item if there are `n` objects, and the object of the sub item -/
def newObjs : SubObj → Nat → List Obj × Addr
  | .addr a, _ => ([], a)
  | .pair k v, n => ([⟨.tuple, .seq [k, v]⟩], n)
  | .nest c sh ls, n => nestBlock c sh ls n

/-- new objects get their addresses one after the other -/
def putObjs (alloc : AState → Nat) : List Obj → AState → AState
  | [], s => s
  | o :: os, s => putObjs alloc os { s with d := { s.d with heap := s.d.heap ++ [o] }, addr := s.addr ++ [alloc s] }

/-- The object of a sub item; objects made for it get their addresses here: the key/value tuple of a dict entry
(load_builtins.py:302-305), the lists and elements `ndarray.tolist()` gives (load_numpy.py:105, 116), the arrays `MaskedArray.data` and `.mask`
(load_numpy.py:157-158), the shape of a sparse matrix (load_scipy.py:46). -/
def subAddrP (alloc : AState → Nat) (o : SubObj) : AM Addr := fun s =>
  (.ok (newObjs o s.d.heap.length).2, putObjs alloc (newObjs o s.d.heap.length).1 s)

/-- The loop variable of hickle.py:144 is bound to the next sub item.  If the memo refers to the object of the last one, that
object and its parts stay; otherwise those of the objects made for it (from number `st` on) that the memo does not refer to are released.
`pin = false`: as if the memo did not keep objects (hickle.py:135-138 says why it does). -/
def release (pin : Bool) (o : SubObj) (st : Nat) (b : Addr) : AM Unit :=
  M.modify fun s =>
    if pin && s.memo.any (fun e => e.2.2 = b) then s
    else { s with dead := ((List.range' st (newObjs o st).1.length).filter fun x => !(pin && s.memo.any fun e => e.2.2 = x)) ++ s.dead }

/-- `_dump` (hickle.py:77-145).  Other objects made and released on the way, such as attribute dictionaries, are never looked
up in the memo. -/
def dumpNodeP (c : DCtx) (alloc : AState → Nat) (pin : Bool) : Nat → Addr → NodeId → PyStr → Attrs → AM Unit
  | 0, _, _, _, _ => M.throw .recursionError
  | fuel + 1, a, parent, name, attrs => do
    let s ← M.get
    match s.addr[a]? with
    | none => M.throw .unmodelled
    | some id =>                                                      -- 103
      match Assoc.get? s.memo id with                                 -- 104
      | some e => do                                                  -- 105-117
        let l ← onD (mkDset [] parent name (.ref e.1))
        onD (setAttrs l attrs)
      | none =>
        match s.d.heap[a]? with
        | none => M.throw .unmodelled
        | some o => do
          let (n, subs, memoise) ← onD (dumpCreate c o parent name)   -- 122-129
          onD (setAttrs n (attrs.filter fun p => p.1 ≠ "type"))       -- 132
          (if memoise then M.modify fun s => { s with memo := Assoc.put s.memo id (n, a) }
           else pure ())                                              -- 139-140
          M.forEach (fun sub => match sub with                        -- 144-145
            | .error e => M.throw e
            | .ok sub => do
              let s ← M.get
              let b ← subAddrP alloc sub.obj
              dumpNodeP c alloc pin fuel b n sub.name sub.attrs
              release pin sub.obj s.d.heap.length b) subs

/-- `dumpData` (Top.lean) on addresses; `ids`: the addresses of the objects of the program -/
def dumpDataP (alloc : AState → Nat) (pin : Bool) (ids : List Nat) (a : DumpArgs) (g : NodeId) (mgr : Manager) (m : RefMgr) : SM Unit := fun s =>
  match m.table with
  | none => (.error .unmodelled, s)
  | some T =>
    let r := dumpNodeP ⟨a.env, mgr, a.kw, T⟩ alloc pin a.fuel a.obj g dataName0 []
      { d := { heap := a.heap, store := s.store, tlinks := m.tl, blinks := m.bl, reg := s.reg }, addr := ids }
    (r.1, { s with store := r.2.d.store, reg := r.2.d.reg })

/-- `dumpTop` (Top.lean; hickle.py:218-236) on addresses -/
def dumpTopP (alloc : AState → Nat) (pin : Bool) (ids : List Nat) (a : DumpArgs) : SM Unit := do
  let s ← M.get
  if !s.writable then M.throw .fileError
  else do
    let g ← dumpGroup a.path
    sSetAttr g "HICKLE_VERSION" (.bytes hickleVersion)
    sSetAttr g "HICKLE_PYTHON_VERSION" (.bytes (verText a.pyver))
    let mgr ← loaderEnter g a.options
    finally' (do
      let m ← refEnter a.env g
      finally' (dumpDataP alloc pin ids a g mgr m) (refExit m)) loaderExit

/-! ### steps that do not look at the memo -/

/-- the step neither reads nor changes the memo -/
def Blind {α : Type} (x : DM α) : Prop := ∀ s m, x { s with memo := m } = ((x s).1, { (x s).2 with memo := m }) ∧ (x s).2.memo = s.memo

namespace Blind
variable {α β : Type}

theorem bind {x : DM α} {f : α → DM β} (hx : Blind x) (hf : ∀ a, Blind (f a)) : Blind (x >>= f) := by
  intro s m
  rw [M.bind_apply, M.bind_apply]
  have h := hx s m
  cases hxs : x s with
  | mk r s1 =>
    rw [hxs] at h
    rw [h.1]
    cases r with
    | ok a => exact ⟨(hf a s1 m).1, (hf a s1 m).2.trans h.2⟩
    | error e => exact ⟨rfl, h.2⟩

theorem get {f : DState → DM β} (hf : ∀ s m, f { s with memo := m } = f s) (hb : ∀ s, Blind (f s)) : Blind (M.get >>= f) := by
  intro s m
  rw [M.bind_of_ok (M.get_apply _), M.bind_of_ok (M.get_apply _), hf]
  exact hb s s m

theorem pure (a : α) : Blind (Pure.pure a : DM α) := fun _ _ => ⟨rfl, rfl⟩
theorem throw (e : PyErr) : Blind (M.throw e : DM α) := fun _ _ => ⟨rfl, rfl⟩
theorem attempt {x : DM α} (h : Blind x) : Blind (M.attempt x) := by
  intro s m
  rw [M.attempt_apply, M.attempt_apply, (h s m).1]
  exact ⟨rfl, (h s m).2⟩
theorem setAttr (n k v) : Blind (setAttr n k v) := fun _ _ => ⟨rfl, rfl⟩
theorem setAttrs (n) (l : Attrs) : Blind (setAttrs n l) := by
  induction l with
  | nil => exact .pure ()
  | cons x l ih => exact .bind (.setAttr _ _ _) fun _ => ih

theorem mkDset (kw p name d) : Blind (mkDset kw p name d) := by
  intro s m
  unfold Verif.mkDset
  simp only []
  split
  · exact ⟨rfl, rfl⟩
  · split <;> exact ⟨rfl, rfl⟩

theorem mkGroup (p name) : Blind (mkGroup p name) := by
  intro s m
  unfold Verif.mkGroup
  simp only []
  split <;> exact ⟨rfl, rfl⟩

theorem createItems (c h items dt p name) : Blind (createItems c h items dt p name) := by
  unfold Verif.createItems
  split
  · refine .bind (.mkDset _ _ _ _) fun n => ?_
    split
    · exact .pure _
    · exact .throw _
  · exact .throw _
  · exact .bind (.mkGroup _ _) fun n => .bind (.setAttr _ _ _) fun _ => .pure _

theorem createPickled (c o p name) : Blind (createPickled c o p name) := by
  unfold Verif.createPickled
  repeat' split
  · exact .mkDset _ _ _ _
  · exact .throw _
  · exact .throw _

theorem createListlike (c h o p name) : Blind (createListlike c h o p name) := by
  unfold Verif.createListlike
  repeat' split
  all_goals first
    | exact .throw _
    | exact .createItems _ _ _ _ _ _
    | exact .bind (.mkDset _ _ _ _) fun n => .bind (.setAttr _ _ _) fun _ => .pure _
    | exact .bind (.mkDset _ _ _ _) fun n => .pure _

theorem createRows (c n sh ls p name) : Blind (createRows c n sh ls p name) := by
  unfold Verif.createRows
  split
  · exact .throw _
  · split
    · exact .bind (.mkDset _ _ _ _) fun n => .pure _
    · exact .bind (.mkGroup _ _) fun n => .bind (.setAttr _ _ _) fun _ => .pure _

theorem createNpArray (c h o p name) : Blind (createNpArray c h o p name) := by
  have dt : ∀ {x d}, Blind x → Blind (withDtype x d) := fun hx => .bind hx fun r => .bind (.setAttr _ _ _) fun _ => .pure _
  unfold Verif.createNpArray
  split
  · exact dt (.bind (.mkDset _ _ _ _) fun n => .pure _)
  · refine dt ?_
    unfold createStrings
    repeat' split
    all_goals first
      | exact .throw _
      | exact .createRows _ _ _ _ _ _
      | exact .bind (.mkDset _ _ _ _) fun n => .pure _
  · refine dt ?_
    unfold createObjects
    repeat' split
    all_goals first
      | exact .throw _
      | exact .createRows _ _ _ _ _ _
      | exact .createListlike _ _ _ _ _
      | exact .bind (.mkGroup _ _) fun n => .pure _
  · exact .throw _

theorem createFn (c fn h o p name) : Blind (createFn c fn h o p name) := by
  unfold Verif.createFn
  split
  · refine .bind ?_ fun n => .pure _
    unfold createScalar
    repeat' split
    all_goals first | exact .mkDset _ _ _ _ | exact .throw _
  · exact .bind (.mkDset _ _ _ _) fun n => .pure _
  · exact .createListlike _ _ _ _ _
  · unfold createSetlike
    repeat' split
    all_goals first
      | exact .throw _
      | exact .createItems _ _ _ _ _ _
      | exact .bind (.mkDset _ _ _ _) fun n => .pure _
  · unfold createDictlike
    split
    · exact .bind (.mkGroup _ _) fun n => .pure _
    · exact .throw _
  · refine .bind ?_ fun n => .pure _
    unfold createNpScalar
    split
    · exact .bind (.mkDset _ _ _ _) fun n => .bind (.setAttr _ _ _) fun _ => .pure _
    · exact .throw _
  · exact .createNpArray _ _ _ _ _
  · unfold createMasked
    split
    · exact .bind (.mkGroup _ _) fun n => .bind (.setAttr _ _ _) fun _ => .pure _
    · exact .throw _
  · unfold createSparse
    split
    · split
      · exact .throw _
      · exact .bind (.mkGroup _ _) fun n => .pure _
    · exact .throw _
  · exact .bind (.createPickled _ _ _ _) fun n => .pure _
  all_goals exact .throw _

theorem storeType (c n cls b) : Blind (storeType c n cls b) := by
  unfold Verif.storeType
  split
  · exact .pure _
  · refine .bind ?_ fun _ => .setAttr _ _ _
    unfold typeEntryNode
    refine .get (fun _ _ => rfl) fun s => ?_
    split
    · exact .pure _
    · split
      · exact .throw _
      · split
        · exact .throw _
        · split
          · exact .throw _
          · refine .bind (.mkDset _ _ _ _) fun _ => .bind ?_ fun _ => .bind (.setAttr _ _ _) fun _ => .bind (fun _ _ => ⟨rfl, rfl⟩) fun _ => .pure _
            unfold baseEntry
            refine .get (fun _ _ => rfl) fun s => ?_
            split
            · exact .pure _
            · exact .bind (.mkDset _ _ _ _) fun _ => .bind (fun _ _ => ⟨rfl, rfl⟩) fun _ => .pure _

theorem dumpCreate (c : DCtx) (o p name) : Blind (dumpCreate c o p name) := by
  unfold Verif.dumpCreate
  refine .bind (fun _ _ => ⟨rfl, rfl⟩) fun r => .get (fun _ _ => rfl) fun s => .bind (.attempt (.createFn _ _ _ _ _ _)) fun r => ?_
  split
  · exact .bind (.storeType _ _ _ _) fun _ => .pure _
  · split
    · exact .bind (.createPickled _ _ _ _) fun _ => .pure _
    · exact .throw _

end Blind

/-! ### simulation -/

/-- the state with objects in place of addresses -/
def AState.erase (s : AState) : DState := { s.d with memo := s.memo.map fun e => (e.2.2, e.2.1) }

/-- addresses are right: objects in use have different addresses, and the memo keeps the objects it has entries for in use -/
structure AState.Ok (H : Heap) (s : AState) : Prop where
  /-- the objects `H` of the program stay in use -/
  size : H <+: s.d.heap
  used : ∀ b, b < H.length → b ∉ s.dead
  old : ∀ b ∈ s.dead, b < s.d.heap.length
  len : s.addr.length = s.d.heap.length
  inj : ∀ a b x, s.Live a → s.Live b → s.addr[a]? = some x → s.addr[b]? = some x → a = b
  memo : ∀ e ∈ s.memo, s.Live e.2.2 ∧ s.addr[e.2.2]? = some e.1

variable {N : Heap}

theorem AState.Ok.lookup {s : AState} (h : s.Ok N) {a : Addr} {id : Nat} (ha : s.Live a) (hid : s.addr[a]? = some id) :
    Assoc.get? s.erase.memo a = (Assoc.get? s.memo id).map (·.1) := by
  have : ∀ l : List (Nat × NodeId × Addr), (∀ e ∈ l, s.Live e.2.2 ∧ s.addr[e.2.2]? = some e.1) →
      Assoc.get? (l.map fun e => (e.2.2, e.2.1)) a = (Assoc.get? l id).map (·.1) := by
    intro l
    induction l with
    | nil => intro _; rfl
    | cons e l ih =>
      intro hl
      obtain ⟨x, n, b⟩ := e
      obtain ⟨h1, h2⟩ := hl (x, n, b) (by simp)
      have hh := ih fun e he => hl e (by simp [he])
      simp only [List.map_cons, Assoc.get?]
      by_cases hx : x = id
      · subst hx
        have : b = a := h.inj b a x h1 ha h2 hid
        simp [this]
      · have : b ≠ a := by rintro rfl; simp only at h2; rw [hid] at h2; simp at h2; exact hx h2.symm
        simp [hx, this, hh]
  exact this s.memo h.memo

/-- objects stay, and those in use stay in use -/
structure AState.Later (s s' : AState) : Prop where
  heap : s.d.heap <+: s'.d.heap
  addr : s.addr <+: s'.addr
  dead : ∀ b, b < s.d.heap.length → b ∈ s'.dead → b ∈ s.dead

theorem AState.Later.refl (s : AState) : s.Later s := ⟨List.prefix_rfl, List.prefix_rfl, fun _ _ h => h⟩
theorem AState.Later.trans {s t u : AState} (h : s.Later t) (h' : t.Later u) : s.Later u :=
  ⟨h.heap.trans h'.heap, h.addr.trans h'.addr, fun b hb hd => h.dead b hb (h'.dead b (Nat.lt_of_lt_of_le hb h.heap.length_le) hd)⟩
theorem AState.Later.live {s t : AState} (h : s.Later t) {a : Addr} (ha : s.Live a) : t.Live a :=
  ⟨Nat.lt_of_lt_of_le ha.1 h.heap.length_le, fun hd => ha.2 (h.dead a ha.1 hd)⟩

/-- the step on addresses does what the step on objects does -/
structure Sim {α : Type} (N : Heap) (x : AM α) (y : DM α) (s : AState) : Prop where
  out : (x s).1 = (y s.erase).1
  state : (x s).2.erase = (y s.erase).2
  ok : (x s).2.Ok N
  later : s.Later (x s).2

theorem Sim.bind {α β : Type} {x : AM α} {y : DM α} {f : α → AM β} {g : α → DM β} {s : AState} (h : Sim N x y s)
    (hf : ∀ a, (x s).1 = .ok a → (x s).2.Ok N → s.Later (x s).2 → Sim N (f a) (g a) (x s).2) : Sim N (x >>= f) (y >>= g) s := by
  have h1 := h.out
  have h2 := h.state
  have h3 := h.ok
  have h4 := h.later
  cases hx : x s with
  | mk r s1 =>
    cases hy : y s.erase with
    | mk q t1 =>
      rw [hx] at h1 h2 h3 h4 hf
      rw [hy] at h1 h2
      simp only at h1 h2 h3 h4 hf
      subst h1
      subst h2
      cases r with
      | error e =>
        refine ⟨?_, ?_, ?_, ?_⟩
        · rw [M.bind_of_error hx, M.bind_of_error hy]
        · rw [M.bind_of_error hx, M.bind_of_error hy]
        · rw [M.bind_of_error hx]; exact h3
        · rw [M.bind_of_error hx]; exact h4
      | ok a =>
        have h5 := hf a rfl h3 h4
        refine ⟨?_, ?_, ?_, ?_⟩
        · rw [M.bind_of_ok hx, M.bind_of_ok hy]; exact h5.out
        · rw [M.bind_of_ok hx, M.bind_of_ok hy]; exact h5.state
        · rw [M.bind_of_ok hx]; exact h5.ok
        · rw [M.bind_of_ok hx]; exact h4.trans h5.later

theorem Sim.pure {α : Type} (a : α) {s : AState} (h : s.Ok N) : Sim N (Pure.pure a) (Pure.pure a) s := ⟨rfl, rfl, h, .refl s⟩
theorem Sim.throw {α : Type} (e : PyErr) {s : AState} (h : s.Ok N) : Sim N (M.throw e : AM α) (M.throw e) s := ⟨rfl, rfl, h, .refl s⟩

theorem AState.Ok.sameHeap {s s' : AState} (h : s.Ok N) (h1 : s'.d.heap = s.d.heap) (h2 : s'.addr = s.addr) (h3 : s'.dead = s.dead) (h4 : s'.memo = s.memo) : s'.Ok N := by
  have hl : ∀ a, s'.Live a ↔ s.Live a := fun a => by unfold Live; rw [h1, h3]
  refine ⟨by rw [h1]; exact h.size, by rw [h3]; exact h.used, by rw [h1, h3]; exact h.old, by rw [h1, h2]; exact h.len, ?_, ?_⟩
  · intro a b x ha hb; rw [h2]; exact h.inj a b x ((hl a).1 ha) ((hl b).1 hb)
  · intro e he; rw [h4] at he; rw [h2, hl]; exact h.memo e he

theorem Sim.onD {α : Type} {x : DM α} (hx : Blind x) (hh : ∀ H, Keeps (OnState fun h _ _ => h = H) x) {s : AState} (h : s.Ok N) : Sim N (onD x) x s := by
  have h1 := hx s.d s.erase.memo
  have hheap : (x s.d).2.heap = s.d.heap := (hh s.d.heap s.d rfl).1
  refine ⟨?_, ?_, h.sameHeap hheap rfl rfl rfl, ⟨?_, List.prefix_rfl, fun _ _ h => h⟩⟩
  · show (x s.d).1 = (x { s.d with memo := s.erase.memo }).1
    rw [h1.1]
  · show { (x s.d).2 with memo := s.erase.memo } = (x { s.d with memo := s.erase.memo }).2
    rw [h1.1]
  · show s.d.heap <+: (x s.d).2.heap
    rw [hheap]; exact List.prefix_rfl

/-- a step that only concerns addresses -/
theorem Sim.andThen {x : AM Unit} {y : DM Unit} {f : AState → AState} {s : AState} (h : Sim N x y s)
    (hf : (x s).2.Ok N → s.Later (x s).2 → (f (x s).2).erase = (x s).2.erase ∧ (f (x s).2).Ok N ∧ s.Later (f (x s).2)) : Sim N (x >>= fun _ => M.modify f) y s := by
  have h1 := h.out
  have h2 := h.state
  have h3 := h.ok
  have h4 := h.later
  have h5 := hf h3 h4
  cases hx : x s with
  | mk r s1 =>
    rw [hx] at h1 h2 h3 h4 h5
    cases r with
    | error e =>
      refine ⟨?_, ?_, ?_, ?_⟩ <;> rw [M.bind_of_error hx]
      · exact h1
      · exact h2
      · exact h3
      · exact h4
    | ok a =>
      refine ⟨?_, ?_, ?_, ?_⟩ <;> rw [M.bind_of_ok hx]
      · exact h1
      · exact h5.1.trans h2
      · exact h5.2.1
      · exact h5.2.2

theorem Sim.congr {α : Type} {x x' : AM α} {y : DM α} {s : AState} (he : x s = x' s) (h : Sim N x' y s) : Sim N x y s :=
  ⟨by rw [he]; exact h.out, by rw [he]; exact h.state, by rw [he]; exact h.ok, by rw [he]; exact h.later⟩

/-- simulation of a loop -/
theorem Sim.forEach {α : Type} {f : α → AM Unit} {g : α → DM Unit} {xs : List α} : ∀ {s : AState}, s.Ok N →
    (∀ x ∈ xs, ∀ t, t.Ok N → s.Later t → Sim N (f x) (g x) t) → Sim N (M.forEach f xs) (M.forEach g xs) s := by
  induction xs with
  | nil => intro s h _; exact .pure () h
  | cons x xs ih =>
    intro s h hf
    exact .bind (hf x (by simp) s h (.refl s)) fun _ _ h1 h2 => ih h1 fun y hy t ht hl => hf y (by simp [hy]) t ht (h2.trans hl)

theorem mkDset_heap {kw p name d} (H) : Keeps (OnState fun h _ _ => h = H) (mkDset kw p name d) := mkDset_on
theorem setAttrs_heap {n l} (H) : Keeps (OnState fun h _ _ => h = H) (setAttrs n l) := setAttrs_on
theorem dumpCreate_heap {c o p name} (H) : Keeps (OnState fun h _ _ => h = H) (dumpCreate c o p name) := dumpCreate_on fun _ _ _ _ h => h

theorem subAddr_eq (so : SubObj) (s : DState) : subAddr so s = (.ok (newObjs so s.heap.length).2, { s with heap := s.heap ++ (newObjs so s.heap.length).1 }) := by
  cases so with
  | addr a => simp [subAddr, newObjs]
  | pair k v => rfl
  | nest c sh ls => rfl

/-- what placing new objects does -/
theorem putObjs_ok {alloc : AState → Nat} (hfresh : AState.Fresh alloc) : ∀ {os : List Obj} {s : AState}, s.Ok N →
    (putObjs alloc os s).Ok N ∧ s.Later (putObjs alloc os s) ∧ (putObjs alloc os s).d = { s.d with heap := s.d.heap ++ os } ∧
      (putObjs alloc os s).memo = s.memo ∧ (putObjs alloc os s).dead = s.dead := by
  intro os
  induction os with
  | nil => intro s h; exact ⟨h, .refl s, by simp [putObjs], rfl, rfl⟩
  | cons o os ih =>
    intro t ht
    have h1 : ({ t with d := { t.d with heap := t.d.heap ++ [o] }, addr := t.addr ++ [alloc t] } : AState).Ok N ∧
        t.Later { t with d := { t.d with heap := t.d.heap ++ [o] }, addr := t.addr ++ [alloc t] } := by
      have hext : ∀ b, ({ t with d := { t.d with heap := t.d.heap ++ [o] }, addr := t.addr ++ [alloc t] } : AState).Live b →
          b = t.d.heap.length ∨ t.Live b := by
        intro b hb
        have := hb.1
        simp at this
        rcases Nat.lt_or_ge b t.d.heap.length with h | h
        · exact .inr ⟨h, hb.2⟩
        · exact .inl (by omega)
      have hold : ∀ b x, t.Live b → (t.addr ++ [alloc t])[b]? = some x → t.addr[b]? = some x := by
        intro b x hb hx
        rwa [List.getElem?_append_left (by rw [ht.len]; exact hb.1)] at hx
      have hnew : ∀ x, (t.addr ++ [alloc t])[t.d.heap.length]? = some x → x = alloc t := by
        intro x hx
        rw [← ht.len] at hx
        simpa using hx.symm
      refine ⟨⟨ht.size.trans (List.prefix_append _ _), ht.used, fun b hb => ?_, ?_, ?_, ?_⟩, ⟨List.prefix_append _ _, List.prefix_append _ _, fun _ _ h => h⟩⟩
      · show b < (t.d.heap ++ [_]).length
        rw [List.length_append]; exact Nat.lt_of_lt_of_le (ht.old b hb) (Nat.le_add_right _ _)
      · show (t.addr ++ [_]).length = (t.d.heap ++ [_]).length
        simp [ht.len]
      · intro b b' x hb hb' hx hx'
        rcases hext b hb with rfl | hb <;> rcases hext b' hb' with rfl | hb'
        · rfl
        · exact absurd (hold _ _ hb' hx') (by rw [hnew x hx]; exact hfresh t b' hb')
        · exact absurd (hold _ _ hb hx) (by rw [hnew x hx']; exact hfresh t b hb)
        · exact ht.inj b b' x hb hb' (hold _ _ hb hx) (hold _ _ hb' hx')
      · intro e he
        obtain ⟨g1, g2⟩ := ht.memo e he
        refine ⟨⟨?_, g1.2⟩, ?_⟩
        · show _ < (t.d.heap ++ [_]).length
          rw [List.length_append]; exact Nat.lt_of_lt_of_le g1.1 (Nat.le_add_right _ _)
        · exact getElem?_prefix (List.prefix_append _ _) g2
    obtain ⟨k1, k2, k3, k4, k5⟩ := ih h1.1
    exact ⟨k1, h1.2.trans k2, by rw [putObjs, k3]; simp, k4, k5⟩

theorem subAddrP_sim {alloc : AState → Nat} (hfresh : AState.Fresh alloc) {so : SubObj} {s : AState} (h : s.Ok N) :
    Sim N (subAddrP alloc so) (subAddr so) s := by
  obtain ⟨k1, k2, k3, k4, k5⟩ := putObjs_ok hfresh (os := (newObjs so s.d.heap.length).1) h
  have he := subAddr_eq so s.erase
  refine ⟨by rw [he]; rfl, ?_, k1, k2⟩
  rw [he]
  simp only [subAddrP, AState.erase, k3, k4]

/-- releasing objects made since a state, but not those the memo refers to -/
theorem release_ok {u t : AState} (h5 : u.Ok N) (hl : t.Later u) (ht : t.Ok N) {xs : List Addr} (hx : ∀ x ∈ xs, t.d.heap.length ≤ x ∧ x < u.d.heap.length)
    (hm : ∀ x ∈ xs, ∀ e ∈ u.memo, e.2.2 ≠ x) :
    ({ u with dead := xs ++ u.dead } : AState).Ok N ∧ t.Later { u with dead := xs ++ u.dead } := by
  have hsub : ∀ b, ({ u with dead := xs ++ u.dead } : AState).Live b → u.Live b :=
    fun b hb => ⟨hb.1, fun hd => hb.2 (List.mem_append_right _ hd)⟩
  refine ⟨⟨h5.size, ?_, ?_, h5.len, ?_, ?_⟩, ⟨hl.heap, hl.addr, ?_⟩⟩
  · intro b hb hd
    rcases List.mem_append.1 hd with hd | hd
    · have := (hx b hd).1
      have := ht.size.length_le
      omega
    · exact h5.used b hb hd
  · intro b hd
    rcases List.mem_append.1 hd with hd | hd
    · exact (hx b hd).2
    · exact h5.old b hd
  · exact fun b b' x hb hb' => h5.inj b b' x (hsub b hb) (hsub b' hb')
  · intro e he
    obtain ⟨g1, g2⟩ := h5.memo e he
    refine ⟨⟨g1.1, fun hd => ?_⟩, g2⟩
    rcases List.mem_append.1 hd with hd | hd
    · exact hm _ hd e he rfl
    · exact g1.2 hd
  · intro b hb hd
    rcases List.mem_append.1 hd with hd | hd
    · have := (hx b hd).1
      omega
    · exact hl.dead b hb hd

theorem depth_bound (H : Heap) : ∃ D, ∀ (x : Addr) (o : Obj), H[x]? = some o → o.val.depth ≤ D := by
  induction H with
  | nil => exact ⟨0, by simp⟩
  | cons o H ih =>
    obtain ⟨D, hD⟩ := ih
    refine ⟨max D o.val.depth, ?_⟩
    intro x p hx
    cases x with
    | zero => simp at hx; subst hx; exact Nat.le_max_right _ _
    | succ x => exact Nat.le_trans (hD x p (by simpa using hx)) (Nat.le_max_left _ _)

/-- With any memory manager, `_dump` on addresses does what `_dump` on objects does: same outcome, same file. -/
theorem dumpNodeP_sim {c : DCtx} {alloc : AState → Nat} (hfresh : AState.Fresh alloc) (hw : Closed N) (fuel : Nat) : ∀ a p name attrs s d, AState.Ok N s →
    Made s.d.heap N.length s.Live d a → Sim N (dumpNodeP c alloc true fuel a p name attrs) (dumpNode c fuel a p name attrs) s := by
  obtain ⟨D, hD⟩ := depth_bound N
  induction fuel with
  | zero => intro a p name attrs s d h _; exact .throw _ h
  | succ fuel ih =>
    intro a p name attrs s d h hmade
    have ha : s.Live a := by
      cases hmade with
      | old hl => exact ⟨Nat.lt_of_lt_of_le hl h.size.length_le, h.used a hl⟩
      | new _ _ h3 => exact h3
    simp only [dumpNodeP, dumpNode]
    obtain ⟨id, hid⟩ : ∃ id, s.addr[a]? = some id := ⟨_, List.getElem?_eq_getElem (by rw [h.len]; exact ha.1)⟩
    have hlook := h.lookup ha hid
    obtain ⟨o, ho⟩ : ∃ o, s.d.heap[a]? = some o := ⟨_, List.getElem?_eq_getElem ha.1⟩
    have ho' : s.erase.heap[a]? = some o := ho
    suffices hs : Sim N
        (match Assoc.get? s.memo id with
          | some e => do
            let l ← onD (mkDset [] p name (.ref e.1))
            onD (setAttrs l attrs)
          | none => do
            let (n, subs, memoise) ← onD (dumpCreate c o p name)
            onD (setAttrs n (attrs.filter fun p => p.1 ≠ "type"))
            (if memoise then M.modify fun s => { s with memo := Assoc.put s.memo id (n, a) } else pure ())
            M.forEach (fun sub => match sub with
              | .error e => M.throw e
              | .ok sub => do
                let s ← M.get
                let b ← subAddrP alloc sub.obj
                dumpNodeP c alloc true fuel b n sub.name sub.attrs
                release true sub.obj s.d.heap.length b) subs)
        (match Assoc.get? s.erase.memo a with
          | some n => do
            let l ← mkDset [] p name (.ref n)
            setAttrs l attrs
          | none => do
            let (n, subs, memoise) ← dumpCreate c o p name
            setAttrs n (attrs.filter fun p => p.1 ≠ "type")
            (if memoise then M.modify fun s => { s with memo := Assoc.put s.memo a n } else pure ())
            M.forEach (fun sub => match sub with
              | .error e => M.throw e
              | .ok sub => do
                let b ← subAddr sub.obj
                dumpNode c fuel b n sub.name sub.attrs) subs) s by
      refine ⟨?_, ?_, ?_, ?_⟩
      · rw [M.bind_of_ok (M.get_apply _), M.bind_of_ok (M.get_apply _), hid, ho, ho']; exact hs.out
      · rw [M.bind_of_ok (M.get_apply _), M.bind_of_ok (M.get_apply _), hid, ho, ho']; exact hs.state
      · rw [M.bind_of_ok (M.get_apply _), hid, ho]; exact hs.ok
      · rw [M.bind_of_ok (M.get_apply _), hid, ho]; exact hs.later
    rw [hlook]
    cases hm : Assoc.get? s.memo id with
    | some e =>
      exact .bind (.onD (.mkDset _ _ _ _) mkDset_heap h) fun l _ h1 _ => .onD (.setAttrs _ _) setAttrs_heap h1
    | none =>
      simp only [Option.map_none]
      refine .bind (.onD (.dumpCreate _ _ _ _) dumpCreate_heap h) fun r hr h1 l1 => ?_
      obtain ⟨n, subs, mem⟩ := r
      have hsub : ∀ sub ∈ subs, sub = .error .valueError ∨ sub = .error .unmodelled ∨ ∃ sb, sub = .ok sb ∧ SubOf s.d.heap o sb.obj := by
        refine dumpCreate_subs (c := c) (o := o) (parent := p) (name := name) (s := s.d) (n := n) (mem := mem) (s1 := (dumpCreate c o p name s.d).2) ?_
        have : (dumpCreate c o p name s.d).1 = .ok (n, subs, mem) := hr
        rw [← this]
      generalize (onD (dumpCreate c o p name) s).2 = s1 at h1 l1
      refine .bind (.onD (.setAttrs _ _) setAttrs_heap h1) fun _ _ h2 l2 => ?_
      generalize (onD (setAttrs n (attrs.filter fun p => p.1 ≠ "type")) s1).2 = s2 at h2 l2
      have hl2 := l1.trans l2
      have hput : Sim N (if mem = true then M.modify fun s => { s with memo := Assoc.put s.memo id (n, a) } else pure () : AM Unit)
          (if mem = true then M.modify fun s => { s with memo := Assoc.put s.memo a n } else pure ()) s2 := by
        cases mem with
        | false => exact .pure () h2
        | true =>
          refine ⟨rfl, rfl, ?_, ⟨List.prefix_rfl, List.prefix_rfl, fun _ _ h => h⟩⟩
          refine ⟨h2.size, h2.used, h2.old, h2.len, h2.inj, fun e he => ?_⟩
          rcases List.mem_cons.1 he with rfl | he
          · exact ⟨hl2.live ha, getElem?_prefix hl2.addr hid⟩
          · exact h2.memo e he
      refine .bind hput fun _ _ h3 l3 => ?_
      have hl3 := hl2.trans l3
      generalize (ite (mem = true) _ _ : AM Unit) s2 = r3 at h3 l3 hl3
      refine .forEach h3 fun sub hmem t ht lt => ?_
      rcases hsub sub hmem with rfl | rfl | ⟨sb, rfl, hso⟩
      · exact .throw _ ht
      · exact .throw _ ht
      · have hlt := hl3.trans lt
        -- the object of the sub item
        have hst : Sim N (subAddrP alloc sb.obj) (subAddr sb.obj) t := subAddrP_sim hfresh ht
        obtain ⟨k1, k2, k3, k4, k5⟩ := putObjs_ok hfresh (os := (newObjs sb.obj t.d.heap.length).1) ht
        have hmb : Made (subAddrP alloc sb.obj t).2.d.heap N.length (subAddrP alloc sb.obj t).2.Live (if a < N.length then D else d - 1)
            (newObjs sb.obj t.d.heap.length).2 := by
          obtain ⟨b, blk, e, hb⟩ := subAddr_made hw hD h.size ho hmade hso (t := t.d) hlt.heap
          rw [subAddr_eq] at e
          simp only [Prod.mk.injEq, Except.ok.injEq, DState.mk.injEq, List.append_cancel_left_eq] at e
          obtain ⟨rfl, rfl, _⟩ := e
          have hh : (subAddrP alloc sb.obj t).2.d.heap = t.d.heap ++ (newObjs sb.obj t.d.heap.length).1 := by
            show (putObjs alloc _ t).d.heap = _
            rw [k3]
          rw [hh]
          refine hb _ (fun x _ hq => hst.later.live (hlt.live hq)) fun x hx1 hx2 => ⟨by rw [hh]; exact hx2, ?_⟩
          show x ∉ (putObjs alloc _ t).dead
          rw [k5]
          intro hd
          have := ht.old x hd
          omega
        have hrec := ih (newObjs sb.obj t.d.heap.length).2 n sb.name sb.attrs _ _ hst.ok hmb
        have hinner : Sim N (subAddrP alloc sb.obj >>= fun b => dumpNodeP c alloc true fuel b n sb.name sb.attrs)
            (subAddr sb.obj >>= fun b => dumpNode c fuel b n sb.name sb.attrs) t := by
          refine .bind hst fun b hb' h4 l4 => ?_
          have hbe : b = (newObjs sb.obj t.d.heap.length).2 := by simpa [subAddrP] using hb'.symm
          subst hbe
          exact hrec
        refine Sim.congr (x' := (subAddrP alloc sb.obj >>= fun b => dumpNodeP c alloc true fuel b n sb.name sb.attrs) >>=
          fun _ => release true sb.obj t.d.heap.length (newObjs sb.obj t.d.heap.length).2) rfl ?_
        have hlen : t.d.heap.length + (newObjs sb.obj t.d.heap.length).1.length ≤
            ((subAddrP alloc sb.obj >>= fun b => dumpNodeP c alloc true fuel b n sb.name sb.attrs) t).2.d.heap.length := by
          have h6 : (subAddrP alloc sb.obj t).2.d.heap.length = t.d.heap.length + (newObjs sb.obj t.d.heap.length).1.length := by
            show (putObjs alloc _ t).d.heap.length = _
            rw [k3]; simp
          have h7 := hrec.later.heap.length_le
          rw [h6] at h7
          exact h7
        refine .andThen hinner fun h5 l5 => ?_
        generalize ((subAddrP alloc sb.obj >>= fun b => dumpNodeP c alloc true fuel b n sb.name sb.attrs) t).2 = u at h5 l5 hlen
        simp only [Bool.true_and]
        split
        · exact ⟨rfl, h5, l5⟩
        · refine ⟨rfl, release_ok h5 l5 ht ?_ ?_⟩
          · intro x hx
            have := (List.mem_filter.1 hx).1
            rw [List.mem_range'_1] at this
            omega
          · intro x hx e he heq
            have := (List.mem_filter.1 hx).2
            simp only [Bool.not_eq_true', List.any_eq_false] at this
            exact this e he (by simpa using heq)

end Verif
