import Verif.Hickle.Proxy
import Verif.Hickle.Spec
/-!
# C31 Attribute overrides for legacy files stay local
-/
namespace Verif

/-- The override of an attribute that is in force after a history (the newest operation first): the last value assigned and not
deleted since.  `stored`: the attributes in the file. -/
def latest (stored : String → Option AttrVal) : List POp → String → Option AttrVal
  | [], _ => none
  | op :: before, k =>
    match op with
    | .set k' v => if k' = k then some v else latest stored before k
    | .del k' | .pop k' => if k' = k then none else latest stored before k
    | .clear => none
    | .update kvs => match Assoc.get? kvs.reverse k with
      | some v => some v
      | none => latest stored before k
    | .setdefault k' v => if k' = k ∧ latest stored before k = none ∧ stored k = none then some v else latest stored before k
    | _ => latest stored before k

/-- what a read gives: the latest override, otherwise the stored value -/
def readAs (stored : String → Option AttrVal) (before : List POp) (k : String) : Option AttrVal :=
  match latest stored before k with
  | some v => some v
  | none => stored k

/-- the operations on proxy `p` in a history (oldest first), newest first -/
def opsOf (p : Nat) (h : List (Nat × POp)) : List POp := ((h.filter fun x => x.1 = p).map Prod.snd).reverse

/-- the attributes of a node in a file -/
def storedAt (S : Store) (n : NodeId) (k : String) : Option AttrVal := (S.attrs n).bind fun a => Assoc.get? a k

/-- the proxies are as the operations since say -/
structure ProxyInv (S : Store) (nodes : List NodeId) (h : List (Nat × POp)) (s : PState) : Prop where
  store : s.store = S
  len : s.proxies.length = nodes.length
  view : ∀ (p : Nat) (n : NodeId), nodes[p]? = some n → ∃ over, s.proxies[p]? = some ⟨n, over⟩ ∧ ∀ k, Assoc.get? over k = latest (storedAt S n) (opsOf p h) k

theorem fileAttrs_get (S : Store) (n : NodeId) (k : String) : Assoc.get? (fileAttrs S n) k = storedAt S n k := by
  unfold fileAttrs storedAt
  cases S.attrs n <;> rfl

theorem get?_dropKey (l : Attrs) (k k' : String) : Assoc.get? (dropKey l k) k' = if k = k' then none else Assoc.get? l k' := by
  induction l with
  | nil => simp [dropKey, Assoc.get?]
  | cons x l ih =>
    unfold dropKey at ih ⊢
    by_cases hx : x.1 = k
    · rw [List.filter_cons_of_neg (by simpa using hx), ih]
      by_cases hk : k = k'
      · simp [hk]
      · simp only [if_neg hk, Assoc.get?]
        rw [if_neg (by rw [hx]; exact hk)]
    · rw [List.filter_cons_of_pos (by simpa using hx)]
      simp only [Assoc.get?]
      rw [ih]
      by_cases hk : k = k'
      · subst hk; simp [hx]
      · simp [hk]

theorem opsOf_snoc (p q : Nat) (op : POp) (h : List (Nat × POp)) : opsOf p (h ++ [(q, op)]) = if q = p then op :: opsOf p h else opsOf p h := by
  unfold opsOf
  by_cases hq : q = p
  · simp [hq]
  · simp [hq]

/-- state in which the map of one proxy has been replaced -/
theorem ProxyInv.replace {S : Store} {nodes : List NodeId} {h : List (Nat × POp)} {s : PState} (hs : ProxyInv S nodes h s) {q : Nat} {op : POp} {n : NodeId}
    {over : Attrs} (hn : nodes[q]? = some n) (ho : ∀ k, Assoc.get? over k = latest (storedAt S n) (op :: opsOf q h) k) :
    ProxyInv S nodes (h ++ [(q, op)]) { s with proxies := s.proxies.set q ⟨n, over⟩ } := by
  refine ⟨hs.store, by simpa using hs.len, fun p m hm => ?_⟩
  rw [opsOf_snoc]
  by_cases hq : q = p
  · subst hq
    rw [hn] at hm; cases hm
    refine ⟨over, ?_, by simpa using ho⟩
    have : q < s.proxies.length := by rw [hs.len]; exact (List.getElem?_eq_some_iff.1 hn).1
    simp [List.getElem?_set_self this]
  · obtain ⟨ov, h1, h2⟩ := hs.view p m hm
    exact ⟨ov, by simp [List.getElem?_set_ne hq, h1], by simpa [hq] using h2⟩

/-- an operation that leaves the overrides as they are -/
theorem ProxyInv.same {S : Store} {nodes : List NodeId} {h : List (Nat × POp)} {s : PState} (hs : ProxyInv S nodes h s) {q : Nat} {op : POp}
    (ho : ∀ n, nodes[q]? = some n → ∀ k, latest (storedAt S n) (op :: opsOf q h) k = latest (storedAt S n) (opsOf q h) k) : ProxyInv S nodes (h ++ [(q, op)]) s := by
  refine ⟨hs.store, hs.len, fun p m hm => ?_⟩
  obtain ⟨ov, h1, h2⟩ := hs.view p m hm
  refine ⟨ov, h1, fun k => ?_⟩
  rw [opsOf_snoc]
  by_cases hq : q = p
  · subst hq; rw [if_pos rfl, ho m hm, h2]
  · rw [if_neg hq, h2]

theorem proxyGet_ok {s : PState} {p : Nat} {x : Proxy} (h : s.proxies[p]? = some x) : proxyGet p s = (.ok x, s) := by
  unfold proxyGet; rw [h]

theorem proxyLook_ok {s : PState} {p : Nat} {x : Proxy} (h : s.proxies[p]? = some x) (k : String) :
    proxyLook p k s = (.ok (match Assoc.get? x.over k with
      | some v => some v
      | none => storedAt s.store x.node k), s) := by
  unfold proxyLook
  rw [M.bind_of_ok (proxyGet_ok h), M.bind_of_ok (M.get_apply s), fileAttrs_get]
  rfl

theorem mapSet_first {s : PState} {p : Nat} {x : Proxy} (h : s.proxies[p]? = some x) (k : String) (v : AttrVal) :
    mapSet .first p k v s = (.ok (), { s with proxies := s.proxies.set p { x with over := Assoc.put x.over k v } }) := by
  unfold mapSet
  rw [M.bind_of_ok (proxyGet_ok h)]
  rfl

theorem update_ok {p : Nat} (kvs : Attrs) : ∀ {s : PState} {x : Proxy}, s.proxies[p]? = some x →
    M.forEach (fun (kv : String × AttrVal) => mapSet .first p kv.1 kv.2) kvs s =
      (.ok (), { s with proxies := s.proxies.set p { x with over := kvs.reverse ++ x.over } }) := by
  induction kvs with
  | nil =>
    intro s x h
    simp only [M.forEach, M.pure_apply, List.reverse_nil, List.nil_append]
    have : s.proxies.set p x = s.proxies := by
      obtain ⟨hp, rfl⟩ := List.getElem?_eq_some_iff.1 h
      exact List.set_getElem_self hp
    rw [this]
  | cons kv kvs ih =>
    intro s x h
    have hp := (List.getElem?_eq_some_iff.1 h).1
    simp only [M.forEach]
    rw [M.bind_of_ok (mapSet_first h _ _)]
    rw [ih (x := { x with over := Assoc.put x.over kv.1 kv.2 }) (by simp [List.getElem?_set_self hp])]
    simp [Assoc.put]

theorem attrs_append (l m : Attrs) (k : String) : Assoc.get? (l ++ m) k = match Assoc.get? l k with
    | some v => some v
    | none => Assoc.get? m k := by
  induction l with
  | nil => rfl
  | cons x l ih =>
    simp only [List.cons_append, Assoc.get?]
    split
    · rfl
    · exact ih

theorem ProxyInv.step {S : Store} {nodes : List NodeId} {h : List (Nat × POp)} {s : PState} (hs : ProxyInv S nodes h s) (q : Nat) (op : POp) :
    ProxyInv S nodes (h ++ [(q, op)]) (proxyOp q op s).2 := by
  cases hn : nodes[q]? with
  | none =>
    have hno : s.proxies[q]? = none := by
      rw [List.getElem?_eq_none_iff] at hn ⊢
      rw [hs.len]; exact hn
    have hg : proxyGet q s = (.error .unmodelled, s) := by unfold proxyGet; rw [hno]
    have hl : ∀ k, proxyLook q k s = (.error .unmodelled, s) := fun k => by unfold proxyLook; rw [M.bind_of_error hg]
    have hm : ∀ k v, mapSet .first q k v s = (.error .unmodelled, s) := fun k v => by unfold mapSet; rw [M.bind_of_error hg]
    have key : (proxyOp q op s).2 = s := by
      cases op <;> simp only [proxyOp]
      case get k => rw [M.bind_of_error (hl k)]
      case getD k d => rw [M.bind_of_error (hl k)]
      case has k => rw [M.bind_of_error (hl k)]
      case set k v => rw [M.bind_of_error (hm k v)]
      case del k => rw [M.bind_of_error hg]
      case pop k => rw [M.bind_of_error hg]
      case setdefault k v => rw [M.bind_of_error (hl k)]
      case update kvs =>
        cases kvs with
        | nil => rfl
        | cons kv kvs =>
          rw [M.bind_of_error (s1 := s) (e := .unmodelled)]
          simp only [M.forEach]
          rw [M.bind_of_error (hm _ _)]
      case clear => rw [M.bind_of_error hg]
      case assign => rfl
    rw [key]
    exact hs.same fun n h => by rw [hn] at h; cases h
  | some n =>
    obtain ⟨over, h1, h2⟩ := hs.view q n hn
    cases op <;> simp only [proxyOp]
    case get k =>
      rw [M.bind_of_ok (proxyLook_ok h1 k)]
      simp only []
      cases Assoc.get? over k with
      | some v => exact hs.same fun _ _ _ => rfl
      | none =>
        simp only []
        cases storedAt s.store n k <;> exact hs.same fun _ _ _ => rfl
    case getD k d =>
      rw [M.bind_of_ok (proxyLook_ok h1 k)]
      simp only []
      cases Assoc.get? over k with
      | some v => exact hs.same fun _ _ _ => rfl
      | none =>
        simp only []
        cases storedAt s.store n k <;> exact hs.same fun _ _ _ => rfl
    case has k =>
      rw [M.bind_of_ok (proxyLook_ok h1 k)]
      exact hs.same fun _ _ _ => rfl
    case set k v =>
      rw [M.bind_of_ok (mapSet_first h1 k v)]
      refine hs.replace hn fun k' => ?_
      simp only [latest]
      by_cases hk : k = k'
      · subst hk; simp
      · rw [Assoc.get?_put_ne _ _ hk, h2, if_neg hk]
    case del k =>
      rw [M.bind_of_ok (proxyGet_ok h1)]
      cases ho : Assoc.get? over k with
      | none =>
        simp only []
        refine hs.same fun m hm k' => ?_
        rw [hn] at hm; cases hm
        simp only [latest]
        by_cases hk : k = k'
        · subst hk; rw [if_pos rfl, ← h2, ho]
        · rw [if_neg hk]
      | some v =>
        simp only []
        rw [M.bind_of_ok (M.modify_apply _ _)]
        refine hs.replace hn fun k' => ?_
        simp only [latest]
        rw [get?_dropKey, h2]
    case pop k =>
      rw [M.bind_of_ok (proxyGet_ok h1)]
      cases ho : Assoc.get? over k with
      | none =>
        simp only []
        refine hs.same fun m hm k' => ?_
        rw [hn] at hm; cases hm
        simp only [latest]
        by_cases hk : k = k'
        · subst hk; rw [if_pos rfl, ← h2, ho]
        · rw [if_neg hk]
      | some v =>
        simp only []
        rw [M.bind_of_ok (M.modify_apply _ _)]
        refine hs.replace hn fun k' => ?_
        simp only [latest]
        rw [get?_dropKey, h2]
    case setdefault k v =>
      rw [M.bind_of_ok (proxyLook_ok h1 k)]
      simp only []
      cases ho : Assoc.get? over k with
      | some w =>
        simp only [M.pure_apply]
        refine hs.same fun m hm k' => ?_
        rw [hn] at hm; cases hm
        simp only [latest]
        rw [if_neg]
        rintro ⟨rfl, hk, _⟩
        rw [← h2, ho] at hk; cases hk
      | none =>
        simp only []
        rw [hs.store]
        cases hst : storedAt S n k with
        | some w =>
          simp only [M.pure_apply]
          refine hs.same fun m hm k' => ?_
          rw [hn] at hm; cases hm
          simp only [latest]
          rw [if_neg]
          rintro ⟨rfl, _, hk⟩
          rw [hst] at hk; cases hk
        | none =>
          simp only []
          rw [M.bind_of_ok (mapSet_first h1 k v)]
          refine hs.replace hn fun k' => ?_
          simp only [latest]
          by_cases hk : k = k'
          · subst hk; rw [if_pos ⟨rfl, by rw [← h2, ho], hst⟩]; simp
          · rw [Assoc.get?_put_ne _ _ hk, h2, if_neg (fun h => hk h.1)]
    case update kvs =>
      rw [M.bind_of_ok (update_ok kvs h1)]
      refine hs.replace hn fun k' => ?_
      simp only [latest]
      rw [attrs_append, h2]
    case clear =>
      rw [M.bind_of_ok (proxyGet_ok h1), M.bind_of_ok (M.modify_apply _ _)]
      exact hs.replace hn fun k' => rfl
    case assign => exact hs.same fun _ _ _ => rfl

theorem ProxyInv.run {S : Store} {nodes : List NodeId} (later : List (Nat × POp)) : ∀ {h : List (Nat × POp)} {s : PState}, ProxyInv S nodes h s →
    ProxyInv S nodes (h ++ later) (runProxy later s) := by
  induction later with
  | nil => intro h s hs; simpa [runProxy] using hs
  | cons x later ih =>
    intro h s hs
    obtain ⟨p, op⟩ := x
    simp only [runProxy]
    have := ih (hs.step p op)
    simpa using this

/-- proxies for the given nodes, nothing overridden -/
def freshProxies (S : Store) (nodes : List NodeId) : PState := ⟨S, nodes.map fun n => ⟨n, []⟩⟩

theorem ProxyInv.fresh (S : Store) (nodes : List NodeId) : ProxyInv S nodes [] (freshProxies S nodes) := by
  refine ⟨rfl, by simp [freshProxies], fun p n hn => ⟨[], by simp [freshProxies, hn], fun k => rfl⟩⟩

/-- **C31, the file.**  Whatever is done through proxies of whatever nodes, the file stays as it is. -/
theorem C31_file (S : Store) (nodes : List NodeId) (h : List (Nat × POp)) : (runProxy h (freshProxies S nodes)).store = S :=
  ((ProxyInv.fresh S nodes).run h).store

/-- **C31, reads.**  After any history of operations on any number of proxies, also of the same node, a read through one of them gives
the latest override made through this one, otherwise the value in the file, otherwise `KeyError` (or the default). -/
theorem C31_reads (S : Store) (nodes : List NodeId) (h : List (Nat × POp)) {p : Nat} {n : NodeId} (hp : nodes[p]? = some n) (k : String) :
    (proxyOp p (.get k) (runProxy h (freshProxies S nodes))).1 = (match readAs (storedAt S n) (opsOf p h) k with
      | some v => .ok (.value v)
      | none => .error .keyError) ∧
    (∀ d, (proxyOp p (.getD k d) (runProxy h (freshProxies S nodes))).1 = .ok (.value ((readAs (storedAt S n) (opsOf p h) k).getD d))) ∧
    (proxyOp p (.has k) (runProxy h (freshProxies S nodes))).1 = .ok (.flag (readAs (storedAt S n) (opsOf p h) k).isSome) := by
  have hs := (ProxyInv.fresh S nodes).run h
  rw [List.nil_append] at hs
  obtain ⟨over, h1, h2⟩ := hs.view p n hp
  have hl := proxyLook_ok h1 k
  rw [h2, hs.store] at hl
  simp only [] at hl
  have hr : readAs (storedAt S n) (opsOf p h) k = (match latest (storedAt S n) (opsOf p h) k with
      | some v => some v
      | none => storedAt S n k) := rfl
  rw [← hr] at hl
  refine ⟨?_, fun d => ?_, ?_⟩
  · simp only [proxyOp]
    rw [M.bind_of_ok hl]
    cases readAs (storedAt S n) (opsOf p h) k <;> rfl
  · simp only [proxyOp]
    rw [M.bind_of_ok hl]
    cases readAs (storedAt S n) (opsOf p h) k <;> rfl
  · simp only [proxyOp]
    rw [M.bind_of_ok hl]; rfl

/-- a dataset with two attributes -/
def C31.file : Store := [⟨[], [], .group [(ps "a", 1)]⟩, ⟨ps "a", [("type", .pcls .list), ("base_type", .bytes "list")], .dset (.vec .int64 [])⟩]

/-- two proxies of the dataset, after some changes -/
def C31.after : PState :=
  runProxy [(0, .set "type" (.pcls .ndarray)), (1, .set "x" (.int 1)), (0, .set "base_type" (.bytes "q")), (0, .del "base_type"), (1, .assign)]
    (freshProxies C31.file [1, 1])

/-- overrides of one proxy are not seen through the other, deleted ones give way to the file -/
example : (proxyOp 0 (.get "type") C31.after).1 = .ok (.value (.pcls .ndarray)) ∧ (proxyOp 1 (.get "type") C31.after).1 = .ok (.value (.pcls .list)) ∧
    (proxyOp 0 (.get "base_type") C31.after).1 = .ok (.value (.bytes "list")) ∧ (proxyOp 0 (.get "x") C31.after).1 = .error .keyError ∧
    (proxyOp 1 (.getD "x" (.int 0)) C31.after).1 = .ok (.value (.int 1)) := by
  refine ⟨rfl, rfl, rfl, rfl, rfl⟩

/-! ### sparse matrices of hickle 4 -/

/-- what a reader of the proxies sees: attribute `k` of proxy `p` -/
def seenAs (s : PState) (p : Nat) (k : String) : Option AttrVal :=
  match s.proxies[p]? with
  | some x => match Assoc.get? x.over k with
    | some v => some v
    | none => storedAt s.store x.node k
  | none => none

/-- nothing changes but proxies are added -/
structure Adds (s s' : PState) : Prop where
  store : s'.store = s.store
  old : ∃ new, s'.proxies = s.proxies ++ new

theorem Adds.refl (s : PState) : Adds s s := ⟨rfl, [], by simp⟩
theorem Adds.trans {a b c : PState} (h : Adds a b) (h' : Adds b c) : Adds a c := by
  obtain ⟨h1, n1, h2⟩ := h
  obtain ⟨h3, n2, h4⟩ := h'
  exact ⟨h3.trans h1, n1 ++ n2, by rw [h4, h2]; simp⟩

/-- the attributes hickle wants to see on the members of a sparse matrix -/
structure Redirected (S : Store) (name : PyStr) (n : NodeId) (s : PState) (p : Nat) : Prop where
  proxy : ∃ over, s.proxies[p]? = some ⟨n, over⟩
  type : seenAs s p "type" = some (.pcls (if name = ps "shape" then .tuple else .ndarray))
  base : seenAs s p "base_type" = some (.bytes (if name = ps "shape" then "tuple" else "ndarray"))
  dtype : name ≠ ps "shape" → ∃ v, seenAs s p "np_dtype" = some v ∧ (storedAt S n "np_dtype" = some v ∨
    (storedAt S n "np_dtype" = none ∧ ∃ nd d, S[n]? = some nd ∧ nd.dtype = some d ∧ v = .dt d))
  other : ∀ k, k ≠ "type" → k ≠ "base_type" → k ≠ "np_dtype" → seenAs s p k = storedAt S n k

theorem Redirected.adds {S : Store} {name : PyStr} {n : NodeId} {s s' : PState} {p : Nat} (h : Redirected S name n s p) (ha : Adds s s') :
    Redirected S name n s' p := by
  obtain ⟨over, hp⟩ := h.proxy
  obtain ⟨hst, new, hold⟩ := ha
  have hp' : s'.proxies[p]? = some ⟨n, over⟩ := by
    rw [hold, List.getElem?_append_left (List.getElem?_eq_some_iff.1 hp).1]; exact hp
  have key : ∀ k, seenAs s' p k = seenAs s p k := by
    intro k
    unfold seenAs
    rw [hp, hp', hst]
  exact ⟨⟨over, hp'⟩, by rw [key]; exact h.type, by rw [key]; exact h.base, by simpa only [key] using h.dtype, by simpa only [key] using h.other⟩

/-- state after proxy `s.proxies.length` has been made for `n` and given the overrides -/
def withProxy (s : PState) (n : NodeId) (over : Attrs) : PState := { s with proxies := s.proxies ++ [⟨n, over⟩] }

theorem withProxy_get (s : PState) (n : NodeId) (over : Attrs) : (withProxy s n over).proxies[s.proxies.length]? = some ⟨n, over⟩ := by simp [withProxy]

theorem withProxy_adds (s : PState) (n : NodeId) (over : Attrs) : Adds s (withProxy s n over) := ⟨rfl, _, rfl⟩

theorem mapSet_with (s : PState) (n : NodeId) (over : Attrs) (k : String) (v : AttrVal) :
    mapSet .first s.proxies.length k v (withProxy s n over) = (.ok (), withProxy s n (Assoc.put over k v)) := by
  rw [mapSet_first (withProxy_get s n over)]
  simp [withProxy]

theorem ensureDtype_ok {s s' : PState} {n : NodeId} {over : Attrs} {u : Unit} (h : ensureDtype s.proxies.length n (withProxy s n over) = (.ok u, s')) :
    (((Assoc.get? over "np_dtype").isSome = true ∨ (storedAt s.store n "np_dtype").isSome = true) ∧ s' = withProxy s n over) ∨
    (Assoc.get? over "np_dtype" = none ∧ storedAt s.store n "np_dtype" = none ∧ ∃ nd d, s.store[n]? = some nd ∧ nd.dtype = some d ∧
      s' = withProxy s n (Assoc.put over "np_dtype" (.dt d))) := by
  unfold ensureDtype at h
  rw [M.bind_of_ok (proxyLook_ok (withProxy_get s n over) _)] at h
  simp only [] at h
  cases ho : Assoc.get? over "np_dtype" with
  | some v => rw [ho] at h; simp at h; exact .inl ⟨.inl rfl, h.symm⟩
  | none =>
    rw [ho] at h
    simp only [] at h
    have hst : (withProxy s n over).store = s.store := rfl
    rw [hst] at h
    cases hs : storedAt s.store n "np_dtype" with
    | some v => rw [hs] at h; simp at h; exact .inl ⟨.inr rfl, h.symm⟩
    | none =>
      rw [hs] at h
      simp only [] at h
      rw [M.bind_of_ok (M.get_apply _), hst] at h
      cases hn : s.store[n]? with
      | none => rw [hn] at h; simp at h
      | some nd =>
        rw [hn] at h
        simp only [Option.bind_some] at h
        cases hd : nd.dtype with
        | none => rw [hd] at h; simp at h
        | some d =>
          rw [hd] at h
          simp only [] at h
          rw [mapSet_with] at h
          simp at h
          exact .inr ⟨rfl, rfl, nd, d, rfl, hd, h.symm⟩


/-- the overrides give what is wanted -/
theorem redirected_of {s : PState} {name : PyStr} {n : NodeId} {over : Attrs}
    (h1 : Assoc.get? over "type" = some (.pcls (if name = ps "shape" then .tuple else .ndarray)))
    (h2 : Assoc.get? over "base_type" = some (.bytes (if name = ps "shape" then "tuple" else "ndarray")))
    (h3 : name ≠ ps "shape" → (Assoc.get? over "np_dtype" = none ∧ (storedAt s.store n "np_dtype").isSome = true) ∨
      (storedAt s.store n "np_dtype" = none ∧ ∃ nd d, s.store[n]? = some nd ∧ nd.dtype = some d ∧ Assoc.get? over "np_dtype" = some (.dt d)))
    (h4 : ∀ k, k ≠ "type" → k ≠ "base_type" → k ≠ "np_dtype" → Assoc.get? over k = none) :
    Redirected s.store name n (withProxy s n over) s.proxies.length := by
  have key : ∀ k, seenAs (withProxy s n over) s.proxies.length k = match Assoc.get? over k with
      | some v => some v
      | none => storedAt s.store n k := by
    intro k
    unfold seenAs
    rw [withProxy_get]
    rfl
  refine ⟨⟨over, withProxy_get ..⟩, by rw [key, h1], by rw [key, h2], fun hn => ?_, fun k k1 k2 k3 => by rw [key, h4 k k1 k2 k3]⟩
  rcases h3 hn with ⟨g1, g2⟩ | ⟨g1, nd, d, g2, g3, g4⟩
  · obtain ⟨v, hv⟩ := Option.isSome_iff_exists.1 g2
    exact ⟨v, by rw [key, g1]; exact hv, .inl hv⟩
  · exact ⟨.dt d, by rw [key, g4], .inr ⟨g1, nd, d, g2, g3, rfl⟩⟩

theorem proxyNew_with (n : NodeId) (s : PState) : proxyNew n s = (.ok s.proxies.length, withProxy s n []) := rfl

theorem redirectItem_ok {head head' : Option SparseHead} {name : PyStr} {n : NodeId} {s s' : PState} {r : Option Nat}
    (h : redirectItem head name n s = (.ok (r, head'), s')) :
    Adds s s' ∧ (name ∈ sparseNames → ∃ p, r = some p ∧ Redirected s.store name n s' p) ∧ (name ∉ sparseNames → r = none) ∧
    (name = ps "data" → ∃ t b, head' = some ⟨t, some b⟩ ∧ storedAt s.store n "type" = some t ∧ storedAt s.store n "base_type" = some b) ∧
    (name ≠ ps "data" → head' = head) := by
  have hds : ps "data" ≠ ps "shape" := by decide
  have e1 : ("type" : String) ≠ "base_type" := by decide
  have e2 : ("type" : String) ≠ "np_dtype" := by decide
  have e3 : ("base_type" : String) ≠ "np_dtype" := by decide
  unfold redirectItem at h
  rw [M.bind_of_ok (proxyNew_with n s)] at h
  by_cases hd : name = ps "data"
  · rw [if_pos hd] at h
    have hl : ∀ k, proxyLook s.proxies.length k (withProxy s n []) = (.ok (storedAt s.store n k), withProxy s n []) := by
      intro k
      rw [proxyLook_ok (withProxy_get s n [])]; rfl
    rw [M.bind_of_ok (hl _), M.bind_of_ok (hl _)] at h
    cases ht : storedAt s.store n "type" with
    | none => rw [ht] at h; simp at h
    | some t =>
      cases hb : storedAt s.store n "base_type" with
      | none => rw [ht, hb] at h; simp at h
      | some b =>
        rw [ht, hb] at h
        simp only [] at h
        obtain ⟨u, s1, h1, h⟩ := M.bind_ok_iff.1 h
        -- the overrides made first
        have hov : ∃ ov, s1 = withProxy s n ov ∧ ((ov = [] ∧ (storedAt s.store n "np_dtype").isSome = true) ∨
            (storedAt s.store n "np_dtype" = none ∧ ∃ nd d, s.store[n]? = some nd ∧ nd.dtype = some d ∧ ov = [("np_dtype", .dt d)])) := by
          rcases ensureDtype_ok h1 with ⟨g1, g2⟩ | ⟨_, g2, nd, d, g3, g4, g5⟩
          · exact ⟨[], g2, .inl ⟨rfl, by simpa [Assoc.get?] using g1⟩⟩
          · exact ⟨_, g5, .inr ⟨g2, nd, d, g3, g4, rfl⟩⟩
        obtain ⟨ov, rfl, hov⟩ := hov
        rw [M.bind_of_ok (mapSet_with ..), M.bind_of_ok (mapSet_with ..)] at h
        obtain ⟨u', s2, h2, h⟩ := M.bind_ok_iff.1 h
        simp at h
        obtain ⟨⟨rfl, rfl⟩, rfl⟩ := h
        have hs2 : s2 = withProxy s n (Assoc.put (Assoc.put ov "type" (.pcls .ndarray)) "base_type" (.bytes "ndarray")) := by
          rcases ensureDtype_ok h2 with ⟨_, g2⟩ | ⟨g1, g2, _⟩
          · exact g2
          · rcases hov with ⟨rfl, q⟩ | ⟨_, nd, d, _, _, rfl⟩
            · rw [g2] at q; simp at q
            · simp [Assoc.put, Assoc.get?] at g1
        subst hs2
        refine ⟨withProxy_adds .., fun _ => ⟨_, rfl, redirected_of ?_ ?_ ?_ ?_⟩, fun hno => ?_, fun _ => ⟨t, b, rfl, rfl, rfl⟩, fun hno => absurd hd hno⟩
        · rw [hd, if_neg hds]; simp [Assoc.put, Assoc.get?]
        · rw [hd, if_neg hds]; simp [Assoc.put, Assoc.get?]
        · intro _
          rcases hov with ⟨rfl, q⟩ | ⟨q, nd, d, q1, q2, rfl⟩
          · exact .inl ⟨by simp [Assoc.put, Assoc.get?], q⟩
          · exact .inr ⟨q, nd, d, q1, q2, by simp [Assoc.put, Assoc.get?]⟩
        · intro k k1 k2 k3
          rcases hov with ⟨rfl, q⟩ | ⟨q, nd, d, q1, q2, rfl⟩ <;> simp [Assoc.put, Assoc.get?, Ne.symm k1, Ne.symm k2, Ne.symm k3]
        · exact absurd (by rw [hd]; decide) hno
  · rw [if_neg hd] at h
    by_cases hm : name ∈ sparseNames
    · rw [if_neg (by simpa using hm)] at h
      by_cases hsh : name = ps "shape"
      · rw [if_pos hsh] at h
        rw [M.bind_of_ok (mapSet_with ..), M.bind_of_ok (mapSet_with ..)] at h
        simp at h
        obtain ⟨⟨rfl, rfl⟩, rfl⟩ := h
        refine ⟨withProxy_adds .., fun _ => ⟨_, rfl, redirected_of ?_ ?_ (fun hn => absurd hsh hn) ?_⟩, fun hno => absurd hm hno, fun h => absurd h hd, fun _ => rfl⟩
        · rw [if_pos hsh]; simp [Assoc.put, Assoc.get?]
        · rw [if_pos hsh]; simp [Assoc.put, Assoc.get?]
        · intro k k1 k2 k3
          simp [Assoc.put, Assoc.get?, Ne.symm k1, Ne.symm k2]
      · rw [if_neg hsh] at h
        rw [M.bind_of_ok (mapSet_with ..), M.bind_of_ok (mapSet_with ..)] at h
        obtain ⟨u', s2, h2, h⟩ := M.bind_ok_iff.1 h
        simp at h
        obtain ⟨⟨rfl, rfl⟩, rfl⟩ := h
        rcases ensureDtype_ok h2 with ⟨g1, rfl⟩ | ⟨_, g2, nd, d, g3, g4, rfl⟩
        · refine ⟨withProxy_adds .., fun _ => ⟨_, rfl, redirected_of ?_ ?_ (fun _ => .inl ⟨?_, ?_⟩) ?_⟩, fun hno => absurd hm hno, fun h => absurd h hd, fun _ => rfl⟩
          · rw [if_neg hsh]; simp [Assoc.put, Assoc.get?]
          · rw [if_neg hsh]; simp [Assoc.put, Assoc.get?]
          · simp [Assoc.put, Assoc.get?]
          · simpa [Assoc.put, Assoc.get?] using g1
          · intro k k1 k2 k3
            simp [Assoc.put, Assoc.get?, Ne.symm k1, Ne.symm k2]
        · refine ⟨withProxy_adds .., fun _ => ⟨_, rfl, redirected_of ?_ ?_ (fun _ => .inr ⟨g2, nd, d, g3, g4, ?_⟩) ?_⟩, fun hno => absurd hm hno, fun h => absurd h hd, fun _ => rfl⟩
          · rw [if_neg hsh]; simp [Assoc.put, Assoc.get?]
          · rw [if_neg hsh]; simp [Assoc.put, Assoc.get?]
          · simp [Assoc.put, Assoc.get?]
          · intro k k1 k2 k3
            simp [Assoc.put, Assoc.get?, Ne.symm k1, Ne.symm k2, Ne.symm k3]
    · rw [if_pos (by simpa using hm)] at h
      simp at h
      obtain ⟨⟨rfl, rfl⟩, rfl⟩ := h
      exact ⟨withProxy_adds .., fun h => absurd h hm, fun _ => rfl, fun h => absurd h hd, fun _ => rfl⟩

/-- **C31, sparse matrices of hickle 4.**  Members whose name is not one of the four are skipped, the others are seen with the type of
an array (`shape`: of a tuple), with a dtype, and with all other attributes as stored; the file is not changed. -/
theorem C31_sparse {ms : List (PyStr × NodeId)} : ∀ {head head' : Option SparseHead} {s s' : PState} {out : List (PyStr × Nat)},
    redirect head ms s = (.ok (out, head'), s') →
    Adds s s' ∧ All2 (fun (o : PyStr × Nat) (m : PyStr × NodeId) => o.1 = m.1 ∧ Redirected s.store m.1 m.2 s' o.2) out (ms.filter fun m => sparseNames.contains m.1) := by
  induction ms with
  | nil =>
    intro head head' s s' out h
    simp [redirect] at h
    obtain ⟨⟨rfl, rfl⟩, rfl⟩ := h
    exact ⟨.refl _, .nil⟩
  | cons m ms ih =>
    intro head head' s s' out h
    obtain ⟨name, n⟩ := m
    simp only [redirect] at h
    obtain ⟨⟨r, head1⟩, s1, h1, h⟩ := M.bind_ok_iff.1 h
    obtain ⟨⟨ps', head2⟩, s2, h2, h⟩ := M.bind_ok_iff.1 h
    obtain ⟨k1, k2, k3, k4, k5⟩ := redirectItem_ok h1
    obtain ⟨g1, g2⟩ := ih h2
    have hss : s1.store = s.store := k1.store
    rw [hss] at g2
    by_cases hm : name ∈ sparseNames
    · obtain ⟨p, rfl, hp⟩ := k2 hm
      simp at h
      obtain ⟨⟨rfl, rfl⟩, rfl⟩ := h
      refine ⟨k1.trans g1, ?_⟩
      rw [List.filter_cons_of_pos (by simpa using hm)]
      exact .cons ⟨rfl, hp.adds g1⟩ g2
    · rw [k3 hm] at h
      simp at h
      obtain ⟨⟨rfl, rfl⟩, rfl⟩ := h
      refine ⟨k1.trans g1, ?_⟩
      rw [List.filter_cons_of_neg (by simpa using hm)]
      exact g2

/-- the class of the matrix is the one stored with the member `data`, wherever it comes in the listing -/
theorem C31_sparse_class {ms : List (PyStr × NodeId)} (hd : ms.Pairwise fun a b => a.1 ≠ b.1) : ∀ {head head' : Option SparseHead} {s s' : PState} {out : List (PyStr × Nat)},
    redirect head ms s = (.ok (out, head'), s') →
    (∀ n, (ps "data", n) ∈ ms → ∃ t b, head' = some ⟨t, some b⟩ ∧ storedAt s.store n "type" = some t ∧ storedAt s.store n "base_type" = some b) ∧
    ((∀ n, (ps "data", n) ∉ ms) → head' = head) := by
  induction ms with
  | nil =>
    intro head head' s s' out h
    simp [redirect] at h
    obtain ⟨⟨rfl, rfl⟩, rfl⟩ := h
    exact ⟨by simp, fun _ => rfl⟩
  | cons m ms ih =>
    intro head head' s s' out h
    obtain ⟨name, n⟩ := m
    rw [List.pairwise_cons] at hd
    simp only [redirect] at h
    obtain ⟨⟨r, head1⟩, s1, h1, h⟩ := M.bind_ok_iff.1 h
    obtain ⟨⟨ps', head2⟩, s2, h2, h⟩ := M.bind_ok_iff.1 h
    obtain ⟨k1, k2, k3, k4, k5⟩ := redirectItem_ok h1
    obtain ⟨g1, g2⟩ := ih hd.2 h2
    have hh : head' = head2 := by cases r <;> simp at h <;> exact h.1.2.symm
    subst hh
    have hss : s1.store = s.store := k1.store
    rw [hss] at g1
    by_cases hn : name = ps "data"
    · have hrest : ∀ m, (ps "data", m) ∉ ms := fun m hm => hd.1 _ hm hn
      have := g2 hrest
      subst this
      refine ⟨fun n' hn' => ?_, fun hno => absurd (by rw [hn]; simp) (hno n)⟩
      rcases List.mem_cons.1 hn' with e | hm
      · cases e; exact k4 hn
      · exact absurd hm (hrest n')
    · refine ⟨fun n' hn' => ?_, fun hno => ?_⟩
      · rcases List.mem_cons.1 hn' with e | hm
        · cases e; exact absurd rfl hn
        · exact g1 n' hm
      · rw [g2 fun m hm => hno m (by simp [hm]), k5 hn]

/-- a csr matrix of hickle 4, with a member that does not belong to it -/
def C31.sparse : Store := [
  ⟨[], [], .group [(ps "shape", 1), (ps "data", 2), (ps "indices", 3), (ps "junk", 4), (ps "indptr", 5)]⟩,
  ⟨ps "shape", [("type", .pcls .list)], .dset (.vec .int64 [.i 3, .i 4])⟩,
  ⟨ps "data", [("type", .pcls (.user 7)), ("base_type", .bytes "csr_matrix"), ("np_dtype", .dt .float64)], .dset (.array .float64 [1] [.f .zero])⟩,
  ⟨ps "indices", [], .dset (.array .int64 [1] [.i 0])⟩,
  ⟨ps "junk", [], .dset (.null "x")⟩,
  ⟨ps "indptr", [], .dset (.array .int64 [4] [.i 0, .i 1, .i 1, .i 1])⟩]

/-- what is done with its members -/
def C31.redirected := redirect none [(ps "shape", 1), (ps "data", 2), (ps "indices", 3), (ps "junk", 4), (ps "indptr", 5)] ⟨C31.sparse, []⟩

example : (C31.redirected.1.toOption.map fun x => (x.1, x.2.map fun h => h.type)) =
      some ([(ps "shape", 0), (ps "data", 1), (ps "indices", 2), (ps "indptr", 4)], some (.pcls (.user 7))) ∧
    C31.redirected.2.store = C31.sparse ∧ seenAs C31.redirected.2 1 "type" = some (.pcls .ndarray) ∧
    seenAs C31.redirected.2 1 "np_dtype" = some (.dt .float64) ∧
    seenAs C31.redirected.2 4 "np_dtype" = some (.dt .int64) ∧ seenAs C31.redirected.2 0 "type" = some (.pcls .tuple) := by
  decide +kernel

end Verif
