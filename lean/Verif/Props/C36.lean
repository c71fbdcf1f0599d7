import Verif.Props.C29
/-!
# C36 Corrupt sequence files
-/
namespace Verif

/-- a stored item of a sequence: the index it claims, and the object it was loaded as -/
structure SeqItem where
  index : Option Nat
  obj : Addr
  deriving DecidableEq, Repr

/-- The list `content` is what the items say: for every position the last item that claims it, or `()` if none does; items that
claim a position together with a later one are `()`; so are items without an index; and there are at least `n` positions. -/
structure SeqOf (n : Nat) (items : List SeqItem) (content : List Addr) : Prop where
  size : n ≤ content.length
  place : ∀ i, i < content.length → (content[i]? = some nobody ∧ ∀ it ∈ items, it.index ≠ some i) ∨
    ∃ before it, (items.filter fun x => x.index = some i) = before ++ [it] ∧ content[i]? = some it.obj ∧ ∀ x ∈ before, x.obj = nobody
  inside : ∀ it ∈ items, ∀ i, it.index = some i → i < content.length
  noIndex : ∀ it ∈ items, it.index = none → it.obj = nobody

/-- the index an item claims (load_builtins.py:440-450): attribute `item_index`, otherwise the number its name ends with -/
def claims (name : PyStr) (attrs : Attrs) : Option Nat :=
  match Assoc.get? attrs "item_index" with
  | some (.int i) => some i.toNat
  | _ => trailingDigits name

theorem listIndex_claims {name : PyStr} {a : Addr} {attrs : Attrs} {r : Option Nat} (h : listIndex name a attrs = .ok r) :
    claims name attrs = r ∧ (r = none → a = nobody) := by
  unfold listIndex at h
  unfold claims
  cases hi : Assoc.get? attrs "item_index" with
  | none =>
    rw [hi] at h
    simp only [] at h ⊢
    cases ht : trailingDigits name with
    | none =>
      rw [ht] at h; simp only [] at h
      split at h
      · simp at h; subst h; exact ⟨rfl, fun _ => by assumption⟩
      · simp at h
    | some i => rw [ht] at h; simp at h; subst h; exact ⟨rfl, by simp⟩
  | some v =>
    rw [hi] at h
    cases v with
    | int i =>
      simp only [] at h ⊢
      split at h
      · simp at h; subst h; exact ⟨rfl, by simp⟩
      · simp at h
    | _ => simp at h

theorem padTo_at {α : Type} (x : α) (l : List α) (i j : Nat) (h : j < (padTo x l i).length) :
    (padTo x l i)[j]? = some ((l[j]?).getD x) := by
  unfold padTo at h ⊢
  rw [List.getElem?_append]
  split
  · next hj => simp [hj]
  · next hj =>
    simp at h hj
    rw [List.getElem?_replicate]
    rw [if_pos (by omega)]
    simp [List.getElem?_eq_none hj]

/-- what one `append` does -/
theorem listAppend_ok {l l' : List Addr} {name : PyStr} {a : Addr} {attrs : Attrs} (h : listAppend l name a attrs = .ok l') :
    (claims name attrs = none ∧ a = nobody ∧ l' = l) ∨
    ∃ i, claims name attrs = some i ∧ (l[i]?).getD nobody = nobody ∧ l' = (padTo nobody l i).set i a := by
  unfold listAppend at h
  cases hi : listIndex name a attrs with
  | error e => rw [hi] at h; simp at h
  | ok r =>
    rw [hi] at h
    obtain ⟨h1, h2⟩ := listIndex_claims hi
    cases r with
    | none => simp at h; exact .inl ⟨h1, h2 rfl, h.symm⟩
    | some i =>
      simp only [] at h
      split at h
      · next hn =>
        simp at h
        rw [padTo_at _ _ _ _ (by rw [padTo_length]; omega)] at hn
        exact .inr ⟨i, h1, by simpa using hn, h.symm⟩
      · simp at h

/-- a run of `append` calls -/
def runAppends : List Addr → List (PyStr × Addr × Attrs) → Except PyErr (List Addr)
  | l, [] => .ok l
  | l, (name, a, attrs) :: its => match listAppend l name a attrs with
    | .error e => .error e
    | .ok l' => runAppends l' its

def itemOf (x : PyStr × Addr × Attrs) : SeqItem := ⟨claims x.1 x.2.2, x.2.1⟩

theorem runAppends_ok (its : List (PyStr × Addr × Attrs)) : ∀ {l l' : List Addr}, runAppends l its = .ok l' →
    l.length ≤ l'.length ∧ (∀ it ∈ its.map itemOf, ∀ i, it.index = some i → i < l'.length) ∧ (∀ it ∈ its.map itemOf, it.index = none → it.obj = nobody) ∧
    ∀ i, i < l'.length →
      (l'[i]? = some ((l[i]?).getD nobody) ∧ ∀ it ∈ its.map itemOf, it.index ≠ some i) ∨
      ((l[i]?).getD nobody = nobody ∧ ∃ before it, ((its.map itemOf).filter fun x => x.index = some i) = before ++ [it] ∧ l'[i]? = some it.obj ∧
        ∀ x ∈ before, x.obj = nobody) := by
  induction its with
  | nil =>
    intro l l' h
    simp [runAppends] at h; subst h
    refine ⟨Nat.le_refl _, by simp, by simp, fun i hi => .inl ⟨by simp [hi], by simp⟩⟩
  | cons x its ih =>
    intro l l' h
    obtain ⟨name, a, attrs⟩ := x
    simp only [runAppends] at h
    cases hx : listAppend l name a attrs with
    | error e => rw [hx] at h; simp at h
    | ok l1 =>
      rw [hx] at h; simp only [] at h
      obtain ⟨i1, i2, i3, i4⟩ := ih h
      rcases listAppend_ok hx with ⟨k1, k2, rfl⟩ | ⟨j, k1, k2, rfl⟩
      · refine ⟨i1, ?_, ?_, fun i hi => ?_⟩
        · intro it hit i hii
          simp only [List.map_cons, List.mem_cons] at hit
          rcases hit with rfl | hit
          · simp [itemOf, k1] at hii
          · exact i2 it hit i hii
        · intro it hit hii
          simp only [List.map_cons, List.mem_cons] at hit
          rcases hit with rfl | hit
          · exact k2
          · exact i3 it hit hii
        · rcases i4 i hi with ⟨g1, g2⟩ | ⟨g0, b, it, g1, g2, g3⟩
          · refine .inl ⟨g1, ?_⟩
            intro it hit
            simp only [List.map_cons, List.mem_cons] at hit
            rcases hit with rfl | hit
            · simp [itemOf, k1]
            · exact g2 it hit
          · exact .inr ⟨g0, b, it, by simp [itemOf, k1]; simpa [itemOf] using g1, g2, g3⟩
      · have hlen : ((padTo nobody l j).set j a).length = max l.length (j + 1) := by rw [List.length_set, padTo_length]
        refine ⟨by omega, ?_, ?_, fun i hi => ?_⟩
        · intro it hit i hii
          simp only [List.map_cons, List.mem_cons] at hit
          rcases hit with rfl | hit
          · simp [itemOf, k1] at hii; subst hii; omega
          · exact i2 it hit i hii
        · intro it hit hii
          simp only [List.map_cons, List.mem_cons] at hit
          rcases hit with rfl | hit
          · simp [itemOf, k1] at hii
          · exact i3 it hit hii
        · have hnew : (((padTo nobody l j).set j a)[i]?).getD nobody = if i = j then a else (l[i]?).getD nobody := by
            split
            · next hij => subst hij; rw [List.getElem?_set_self (by rw [padTo_length]; omega)]; rfl
            · next hij =>
              rw [List.getElem?_set_ne (Ne.symm hij)]
              by_cases hi2 : i < (padTo nobody l j).length
              · rw [padTo_at _ _ _ _ hi2]; rfl
              · rw [List.getElem?_eq_none (by omega)]
                rw [padTo_length] at hi2
                rw [List.getElem?_eq_none (by omega)]
          have key := i4 i hi
          rw [hnew] at key
          by_cases hij : i = j
          · subst hij
            rw [if_pos rfl] at key
            refine .inr ⟨k2, ?_⟩
            rcases key with ⟨g1, g2⟩ | ⟨g0, b, it, g1, g2, g3⟩
            · refine ⟨[], itemOf (name, a, attrs), ?_, g1, by simp⟩
              rw [List.map_cons, List.filter_cons_of_pos (by simp [itemOf, k1])]
              rw [List.filter_eq_nil_iff.2 (by intro x hx; simpa using g2 x hx)]
              rfl
            · refine ⟨itemOf (name, a, attrs) :: b, it, ?_, g2, ?_⟩
              · rw [List.map_cons, List.filter_cons_of_pos (by simp [itemOf, k1]), g1]; rfl
              · intro x hx
                rcases List.mem_cons.1 hx with rfl | hx
                · exact g0
                · exact g3 x hx
          · rw [if_neg hij] at key
            have hne : (itemOf (name, a, attrs)).index ≠ some i := by
              simp only [itemOf, k1]; intro h; cases h; exact hij rfl
            rcases key with ⟨g1, g2⟩ | ⟨g0, b, it, g1, g2, g3⟩
            · refine .inl ⟨g1, fun it hit => ?_⟩
              rw [List.map_cons] at hit
              rcases List.mem_cons.1 hit with rfl | hit
              · exact hne
              · exact g2 it hit
            · refine .inr ⟨g0, b, it, ?_, g2, g3⟩
              rw [List.map_cons, List.filter_cons_of_neg (by simpa using hne), g1]

theorem runAppends_seqOf {n : Nat} {its : List (PyStr × Addr × Attrs)} {l : List Addr} (h : runAppends (List.replicate n nobody) its = .ok l) :
    SeqOf n (its.map itemOf) l := by
  obtain ⟨h1, h2, h3, h4⟩ := runAppends_ok its h
  have hn : ∀ i : Nat, ((List.replicate n nobody)[i]?).getD nobody = nobody := by
    intro i
    rw [List.getElem?_replicate]
    split <;> rfl
  refine ⟨by simpa using h1, fun i hi => ?_, h2, h3⟩
  rcases h4 i hi with ⟨g1, g2⟩ | ⟨_, g⟩
  · exact .inl ⟨by rw [g1, hn], g2⟩
  · exact .inr g

/-! ### the items are what the members of the group are loaded as -/

/-- object `a` is what node `m` stands for at state `s`: it has been loaded before, or it is loaded now -/
def LoadedAs (c : LCtx) (fuel : Nat) (s : LState) (m : NodeId) (nd : Node) (a : Addr) : Prop :=
  Assoc.get? s.memo m = some a ∨ (Assoc.get? s.memo m = none ∧ ∃ mem s', loadObj c (loadNode c fuel) nd s = (.ok (a, mem), s'))

theorem contAppend_list {c : LCtx} {cls : Cls} {l : List Addr} {name : PyStr} {a : Addr} {attrs : Attrs} {s s' : LState} {cont : Cont}
    (h : contAppend c (.list cls l) name a attrs s = (.ok cont, s')) : ∃ l', cont = .list cls l' ∧ listAppend l name a attrs = .ok l' := by
  unfold contAppend at h
  simp only [] at h
  rw [M.bind_apply] at h
  simp only [M.ofExcept_apply] at h
  cases hx : listAppend l name a attrs with
  | error e => rw [hx] at h; simp at h
  | ok l' => rw [hx] at h; simp at h; exact ⟨l', h.1.symm, rfl⟩

theorem loadNode_list {c : LCtx} {fuel : Nat} {cls : Cls} {l : List Addr} {name : PyStr} {m : NodeId} {s s' : LState} {cont : Cont}
    (h : loadNode c fuel (.list cls l) name m s = (.ok cont, s')) :
    ∃ nd a l', c.store[m]? = some nd ∧ LoadedAs c (fuel - 1) s m nd a ∧ cont = .list cls l' ∧ listAppend l name a nd.attrs = .ok l' := by
  cases fuel with
  | zero => simp [loadNode] at h
  | succ fuel =>
    cases hn : c.store[m]? with
    | none => simp [loadNode, hn] at h
    | some nd =>
      simp only [loadNode, hn] at h
      rw [M.bind_of_ok (M.get_apply s)] at h
      cases hm : Assoc.get? s.memo m with
      | some a =>
        rw [hm] at h; simp only [] at h
        obtain ⟨l', h1, h2⟩ := contAppend_list h
        exact ⟨nd, a, l', rfl, .inl hm, h1, h2⟩
      | none =>
        rw [hm] at h; simp only [] at h
        obtain ⟨⟨a, mem⟩, s1, h1, h2⟩ := M.bind_ok_iff.1 h
        unfold loadFinish at h2
        obtain ⟨cont', s2, h3, h4⟩ := M.bind_ok_iff.1 h2
        obtain ⟨l', h5, h6⟩ := contAppend_list h3
        refine ⟨nd, a, l', rfl, .inr ⟨hm, mem, s1, h1⟩, ?_, h6⟩
        subst h5
        cases mem with
        | true => simp [M.bind_apply] at h4; exact h4.1.symm
        | false => simp at h4; exact h4.1.symm

/-- the items of a list, one for each member of its group, in the order in which they are visited -/
def ItemsOf (c : LCtx) (fuel : Nat) (links : List (PyStr × NodeId)) (items : List SeqItem) : Prop :=
  All2 (fun (it : SeqItem) (p : PyStr × NodeId) => ∃ (nd : Node) (s : LState), c.store[p.2]? = some nd ∧ it.index = claims p.1 nd.attrs ∧
    LoadedAs c fuel s p.2 nd it.obj) items links

theorem fold_list {c : LCtx} {fuel : Nat} {cls : Cls} (links : List (PyStr × NodeId)) : ∀ {l : List Addr} {s s' : LState} {cont : Cont},
    M.foldEach (fun sub (p : PyStr × NodeId) => loadNode c fuel sub p.1 p.2) (.list cls l) links s = (.ok cont, s') →
    ∃ its l', cont = .list cls l' ∧ runAppends l its = .ok l' ∧ ItemsOf c (fuel - 1) links (its.map itemOf) := by
  induction links with
  | nil =>
    intro l s s' cont h
    simp [M.foldEach] at h
    exact ⟨[], l, h.1.symm, rfl, .nil⟩
  | cons p links ih =>
    intro l s s' cont h
    simp only [M.foldEach] at h
    obtain ⟨cont1, s1, h1, h2⟩ := M.bind_ok_iff.1 h
    obtain ⟨nd, a, l1, k1, k2, rfl, k4⟩ := loadNode_list h1
    obtain ⟨its, l', g1, g2, g3⟩ := ih h2
    exact ⟨(p.1, a, nd.attrs) :: its, l', g1, by simp only [runAppends, k4]; exact g2, .cons ⟨nd, s, k1, rfl, k2⟩ g3⟩

/-- number of items the group announces (load_builtins.py:435) -/
def announced (attrs : Attrs) : Nat :=
  match Assoc.get? attrs "num_items" with
  | some (.int i) => i.toNat
  | _ => 0

/-- the node is a group that is loaded as a list or tuple -/
structure SequenceNode (c : LCtx) (nd : Node) (r : Resolved) (s : LState) (links : List (PyStr × NodeId)) : Prop where
  group : nd.body = .group links
  isCont : r.isCont = true
  loader : c.mgr.container s.reg r.base = some .listLike

/-- **C36 (partial).**  Take any file, and in it any group that is loaded as a list or a tuple.  If loading it succeeds then the list
holds what the members of the group say: at each position the member that claims it.  A position that no member claims becomes `()`,
and a member that is overruled by another one at the same position is `()`. -/
theorem C36_partial {c : LCtx} {fuel : Nat} {nd : Node} {r : Resolved} {cls : Cls} {s s' : LState} {b : Addr} {links : List (PyStr × NodeId)}
    (hs : SequenceNode c nd r s links) (hc : cls = .list ∨ cls = .tuple) (h : loadBody c (loadNode c fuel) nd r cls s = (.ok b, s')) :
    ∃ items content, ItemsOf c (fuel - 1) (c.order links) items ∧ SeqOf (announced nd.attrs) items content ∧
      ((content = [] ∧ cls = .tuple ∧ b = nobody) ∨ s'.heap[b]? = some ⟨cls, .seq content⟩) := by
  unfold loadBody at h
  rw [M.bind_of_ok (M.get_apply s)] at h
  rw [if_pos hs.isCont, hs.loader] at h
  obtain ⟨sub, s1, h1, h⟩ := M.bind_ok_iff.1 h
  have hsub : sub = .list cls (List.replicate (announced nd.attrs) nobody) := by
    simp only [Option.getD_some, mkCont] at h1
    unfold announced
    cases hn : Assoc.get? nd.attrs "num_items" with
    | none => rw [hn] at h1; simp at h1; exact h1.1.symm
    | some v =>
      rw [hn] at h1
      cases v <;> simp at h1
      exact h1.1.symm
  subst hsub
  obtain ⟨links', s2, h2, h⟩ := M.bind_ok_iff.1 h
  have hl : links' = c.order links := by
    unfold contFilter at h2
    rw [hs.group] at h2
    simp at h2
    exact h2.1.symm
  subst hl
  obtain ⟨cont, s3, h3, h⟩ := M.bind_ok_iff.1 h
  obtain ⟨its, content, rfl, g2, g3⟩ := fold_list _ h3
  refine ⟨its.map itemOf, content, g3, runAppends_seqOf g2, ?_⟩
  unfold contConvert at h
  simp only [] at h
  rcases hc with rfl | rfl
  · simp only [mkSeq, lAlloc] at h
    cases h
    exact .inr (by simp)
  · simp only [mkSeq] at h
    split at h
    · next hnil => simp at h; exact .inl ⟨hnil, rfl, h.1.symm⟩
    · simp only [lAlloc] at h
      cases h
      exact .inr (by simp)

/-- A list read from a file whose members do not include `()` and which has no `()` itself: every position is claimed by exactly one
member, and holds that one. -/
theorem C36_exact {n : Nat} {items : List SeqItem} {content : List Addr} (h : SeqOf n items content) (hi : ∀ it ∈ items, it.obj ≠ nobody)
    (hc : nobody ∉ content) : (∀ it ∈ items, ∃ i, it.index = some i ∧ i < content.length) ∧
      ∀ i, i < content.length → ∃ it, (items.filter fun x => x.index = some i) = [it] ∧ content[i]? = some it.obj := by
  refine ⟨fun it hit => ?_, fun i hlt => ?_⟩
  · cases hx : it.index with
    | none => exact absurd (h.noIndex it hit hx) (hi it hit)
    | some i => exact ⟨i, rfl, h.inside it hit i hx⟩
  · rcases h.place i hlt with ⟨g, _⟩ | ⟨before, it, g1, g2, g3⟩
    · exact absurd (List.mem_of_getElem? g) hc
    · cases before with
      | nil => exact ⟨it, g1, g2⟩
      | cons x before =>
        refine absurd (g3 x (by simp)) (hi x ?_)
        have : x ∈ items.filter fun x => x.index = some i := by rw [g1]; simp
        exact (List.mem_filter.1 this).1

/-- Two members that claim the same position, none of them `()`: such a group is never loaded. -/
theorem C36_duplicate {n : Nat} {items : List SeqItem} {content : List Addr} (h : SeqOf n items content) {i : Nat} {x y : SeqItem} {l1 l2 l3 : List SeqItem}
    (hx : items = l1 ++ x :: l2 ++ y :: l3) (h1 : x.index = some i) (h2 : y.index = some i) : x.obj = nobody := by
  have hlt := h.inside x (by rw [hx]; simp) i h1
  rcases h.place i hlt with ⟨_, g⟩ | ⟨before, it, g1, g2, g3⟩
  · exact absurd h1 (g x (by rw [hx]; simp))
  · rw [hx] at g1
    simp only [List.filter_append, List.filter_cons, h1, h2, decide_true, if_true, List.append_assoc, List.cons_append] at g1
    -- `x` is not the last one
    have hb : before = (l1.filter fun z => decide (z.index = some i)) ++ x :: ((l2.filter fun z => decide (z.index = some i)) ++
        (y :: (l3.filter fun z => decide (z.index = some i))).dropLast) := by
      have := congrArg List.dropLast g1
      rw [List.dropLast_concat] at this
      rw [← this]
      rw [List.dropLast_append_of_ne_nil (by simp), List.dropLast_cons_of_ne_nil (by simp), List.dropLast_append_of_ne_nil (by simp)]
    exact g3 x (by rw [hb]; simp)

/-- a file with a list of strings: `members` are the members of its group with the index they claim -/
def C36.file (numItems : Int) (members : List (PyStr × NodeId)) (items : List Node) : Session := { Ex.file0 with store := [
  ⟨[], [("HICKLE_VERSION", .bytes "5.0.3"), ("HICKLE_PYTHON_VERSION", .bytes "3.8.10")], .group [(dataName0, 1), (tableName, 2)]⟩,
  ⟨dataName0, [("type", .ref 4), ("num_items", .int numItems)], .group members⟩,
  ⟨tableName, [], .group [(ps "list", 3), (ps "0", 4), (ps "str", 5), (ps "1", 6), (ps "tuple", 7), (ps "2", 8)]⟩,
  ⟨ps "list", [], .dset (.null "S1")⟩,
  ⟨ps "0", [("base_type", .ref 3)], .dset (.pickleCls .list)⟩,
  ⟨ps "str", [], .dset (.null "S1")⟩,
  ⟨ps "1", [("base_type", .ref 5)], .dset (.pickleCls .str)⟩,
  ⟨ps "tuple", [], .dset (.null "S1")⟩,
  ⟨ps "2", [("base_type", .ref 7)], .dset (.pickleCls .tuple)⟩] ++ items }

/-- a string item and an empty tuple item -/
def C36.item (name : String) (index : Int) (letter : UInt8) : Node :=
  ⟨ps name, [("type", .ref 6), ("item_index", .int index), ("str_type", .bytes "str")], .dset (.chars [letter])⟩
def C36.unit (name : String) (index : Int) : Node :=
  ⟨ps name, [("type", .ref 8), ("item_index", .int index)], .dset (.null "int")⟩

def C36.load (s : Session) : Except PyErr (Heap × Addr) := (loadTop ⟨Ex.env, [], id, 100⟩ s).1

/-- the list `['a', 'b', 'c']` as dump writes it -/
def C36.whole : Session := C36.file 3 [(ps "data0", 9), (ps "data1", 10), (ps "data2", 11)] [C36.item "data0" 0 97, C36.item "data1" 1 98, C36.item "data2" 2 99]

/-- it is read, and has the three items -/
example : (C36.load C36.whole).toOption = some ([⟨.tuple, .seq []⟩, ⟨.str, .str [97]⟩, ⟨.str, .str [98]⟩, ⟨.str, .str [99]⟩, ⟨.list, .seq [1, 2, 3]⟩], 4) := by
  decide +kernel

/-- the hypotheses of `C36_partial` hold for it -/
example : ∃ (r : Resolved) (s s' : LState) (b : Addr), SequenceNode ⟨Ex.env, ⟨[none]⟩, C36.whole.store, List.reverse⟩ (C36.whole.store[1]?.getD default) r s
      [(ps "data0", 9), (ps "data1", 10), (ps "data2", 11)] ∧
    loadBody ⟨Ex.env, ⟨[none]⟩, C36.whole.store, List.reverse⟩ (loadNode ⟨Ex.env, ⟨[none]⟩, C36.whole.store, List.reverse⟩ 20) (C36.whole.store[1]?.getD default) r .list s =
      (.ok b, s') := by
  let c : LCtx := ⟨Ex.env, ⟨[none]⟩, C36.whole.store, List.reverse⟩
  let s : LState := { heap := loadHeap, reg := (loadLoader Ex.env ⟨[none]⟩ .list none Registry.initial).2 }
  have h : Ex.isOk (loadBody c (loadNode c 20) (C36.whole.store[1]?.getD default) ⟨.list, "list", "list", true⟩ .list s).1 = true := by decide +kernel
  obtain ⟨b, hb⟩ := Ex.eq_of_isOk h
  exact ⟨⟨.list, "list", "list", true⟩, s, _, b, ⟨rfl, rfl, by decide +kernel⟩, hb⟩

/-- two strings that claim position 1 are refused -/
example : Ex.raised (C36.load (C36.file 3 [(ps "data0", 9), (ps "data1", 10), (ps "data2", 11)] [C36.item "data0" 0 97, C36.item "data1" 1 98, C36.item "data2" 1 99])) =
    some .valueError := by decide +kernel

/-- **C36 is violated by a missing item.**  The list `['a', 'b', 'c']` without its member `data1` loads as `['a', (), 'c']`. -/
theorem C36_violated_missing :
    (C36.load (C36.file 3 [(ps "data0", 9), (ps "data2", 11)] [C36.item "data0" 0 97, C36.item "data1" 1 98, C36.item "data2" 2 99])).toOption =
      some ([⟨.tuple, .seq []⟩, ⟨.str, .str [97]⟩, ⟨.str, .str [99]⟩, ⟨.list, .seq [1, 0, 2]⟩], 3) := by decide +kernel

/-- **C36 is violated by a repeated index.**  A list with the members `()` and `'c'`, both for position 0, loads as `['c']`: an item is
dropped. -/
theorem C36_violated_repeated :
    (C36.load (C36.file 1 [(ps "data0", 9), (ps "data1", 10)] [C36.unit "data0" 0, C36.item "data1" 0 99])).toOption =
      some ([⟨.tuple, .seq []⟩, ⟨.str, .str [99]⟩, ⟨.list, .seq [1]⟩], 2) := by decide +kernel

end Verif
