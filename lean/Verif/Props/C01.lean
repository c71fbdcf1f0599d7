import Verif.Props.Examples
/-!
# C01 Values survive dump followed by load

Specification: `Copy` in `Verif/Hickle/Spec.lean` (does not mention dump or load).
-/
namespace Verif

variable {P : Nat → Prop}

/-- **C01.**  Whatever was done to the file before: if `dump` of an object of an acyclic graph
returns, `load` returns a copy of the object. -/
theorem C01_round_trip {a : DumpArgs} {s s' : Session} (h : GoodDump P a s s') :
    Loads P a.env s'.store a.path fun L b => Copy a.heap L b a.obj :=
  h.loads.imp fun _ _ h => h.1

/-- the hypotheses are met by the object graph of `Ex` -/
example : Loads (fun _ => True) Ex.env Ex.file1.store [ps "run", ps "a"] fun L b => Copy Ex.heap L b 11 :=
  C01_round_trip Ex.good

/-- ints next to floats in sequences, sets and stored pairs of key and value are representable as floats
(all up to 2^53 are) -/
structure SmallNums (H : Heap) : Prop where
  items : ∀ (a : Addr) (o : Obj) items, H[a]? = some o → (o.val = .seq items ∨ o.val = .set items) → NumsOk H items
  pairs : ∀ (a : Addr) (o : Obj) es, H[a]? = some o → o.val = .dict es → ∀ k v q, (k, v) ∈ es → H[k]? = some q → q.plainKey = false → NumsOk H [k, v]

/-- a copy in which every number has the same mathematical value -/
def ExactCopy (H L : Heap) (b a : Addr) : Prop :=
  ∃ R N Q, CopyBy H L R N Q b a ∧ ∀ d x c, N d x c →
    ∃ o o' v w, H[c]? = some o ∧ L[x]? = some o' ∧ exactNum o = some v ∧ exactNum o' = some w ∧ w.val = v.val

theorem Copy.exactCopy {H L : Heap} {b a : Addr} (h : Copy H L b a) (hn : SmallNums H) : ExactCopy H L b a := by
  obtain ⟨R, N, Q, hb, hR, hN, hQ, hf, hs⟩ := h
  have items : ∀ {xs as : List Addr}, NumsOk H as → ItemsCopy H R N xs as → ItemsCopy H R (fun d x c => N d x c ∧ FitsAt H d c) xs as := by
    rintro xs as h (h1 | ⟨d, hd, h1⟩)
    · exact .inl h1
    · refine .inr ⟨d, hd, h1.imp fun x c _ hc hx => ⟨hx, h.fits (fun c' hc' => ?_) hd hc⟩⟩
      obtain ⟨y, _, hy⟩ := h1.right hc'
      obtain ⟨o, o', g1, _, v, w, g2, _⟩ := hN d y c' hy
      simp [numDt, g1, g2]
  refine ⟨R, fun d x c => N d x c ∧ FitsAt H d c, Q, ⟨hb, fun x c hx => ?_, fun d x c hx => hN d x c hx.1, hQ, ?_, hs⟩, ?_⟩
  · obtain ⟨o, o', e1, e2, e3, e4⟩ := hR x c hx
    refine ⟨o, o', e1, e2, e3, ?_⟩
    obtain ⟨cl, v⟩ := o
    obtain ⟨cl', v'⟩ := o'
    simp only at e4 ⊢
    cases e4 with
    | atom h => exact .atom h
    | seq h => exact .seq (items (hn.items c _ _ e1 (.inl rfl)) h)
    | set h hp => exact .set (items ((hn.items c _ _ e1 (.inr rfl)).perm hp.symm) h) hp
    | dict h =>
      refine .dict (h.imp fun e' e _ he hc => ?_)
      rcases hc with hc | ⟨⟨q, hq, hpl⟩, hc⟩
      · exact .inl hc
      · exact .inr ⟨⟨q, hq, hpl⟩, items (hn.pairs c _ _ e1 rfl e.1 e.2 q he hq hpl) hc⟩
    | oarr h => exact .oarr h
    | sparse h1 h2 h3 => exact .sparse h1 h2 h3
  · intro x c c' h1 h2
    exact hf x c c' (h1.imp id (Or.imp (fun ⟨d, h⟩ => ⟨d, h.1⟩) id)) (h2.imp id (Or.imp (fun ⟨d, h⟩ => ⟨d, h.1⟩) id))
  · rintro d x c ⟨hx, hfit⟩
    obtain ⟨o, o', e1, e2, v, w, e3, rfl, _, e5⟩ := hN d x c hx
    exact ⟨o, _, v, w, e1, e2, e3, exactNum_np w, e5 (hfit o v e1 e3)⟩

/-- **C01, with numbers.**  If no int beside a float is too large for a float, all numbers have the same value. -/
theorem C01_values {a : DumpArgs} {s s' : Session} (h : GoodDump P a s s') (hn : SmallNums a.heap) :
    Loads P a.env s'.store a.path fun L b => ExactCopy a.heap L b a.obj :=
  (C01_round_trip h).imp fun _ _ h => h.exactCopy hn

theorem smallNums_of {H : Heap} (h : (H.all fun o => match o.val with
    | .seq items | .set items => numsB H items
    | .dict es => es.all fun e => numsB H [e.1, e.2]
    | _ => true) = true) : SmallNums H := by
  have key : ∀ (a : Addr) (o : Obj), H[a]? = some o → _ := fun a o ho => List.all_eq_true.1 h o (List.mem_of_getElem? ho)
  refine ⟨fun a o items ho hv => ?_, fun a o es ho hv k v _ hkv _ _ => ?_⟩
  · have := key a o ho
    rcases hv with hv | hv <;> rw [hv] at this <;> exact numsOk_of this
  · have := key a o ho
    rw [hv] at this
    exact numsOk_of (List.all_eq_true.1 this (k, v) hkv)

example : Loads (fun _ => True) Ex.env Ex.file1.store [ps "run", ps "a"] fun L b => ExactCopy Ex.heap L b 11 :=
  C01_values Ex.good (smallNums_of (by decide +kernel))

/-- objects of built-in, numpy and scipy types and plain `object` instances only -/
structure PlainHeap (env : Env) (H : Heap) : Prop where
  native : ∀ o ∈ H, NativeOk o = true
  wf : ∀ (a : Addr) (o : Obj), H[a]? = some o → ∀ b ∈ o.val.children, b < H.length
  nums : ∀ (a : Addr) (o : Obj) items, H[a]? = some o → o.val = .set items → NumsOk H items ∧ ∀ x ∈ items, NumsIn H x
  knums : ∀ (a : Addr) (o : Obj) es, H[a]? = some o → o.val = .dict es → ∀ k v, (k, v) ∈ es → KeyNumOk H k v ∧ NumsIn H k
  sets : ∀ (a : Addr) (o : Obj) items, H[a]? = some o → o.val = .set items → Distinct env H items
  keys : ∀ (a : Addr) (o : Obj) es, H[a]? = some o → o.val = .dict es → Distinct env H (es.map Prod.fst) ∧
    ∀ k v, (k, v) ∈ es → ∀ q, H[k]? = some q → q.val ≠ .bool false
  sparse : ∀ (a : Addr) (o : Obj) d i p sh, H[a]? = some o → o.val = .sparse d i p sh →
    ∀ x ∈ [d, i, p], ∃ t shape l, H[x]? = some ⟨.ndarray, .arr t shape l⟩
  oarrs : ∀ (a : Addr) (o : Obj) sh items, H[a]? = some o → o.val = .oarr sh items → ObjArrOk H sh items
  unit : ∀ (a b : Addr), H[a]? = some ⟨.tuple, .seq []⟩ → H[b]? = some ⟨.tuple, .seq []⟩ → a = b

/-- `float(repr(x)) == x`, as Python guarantees; there are no slashes in the text -/
def ReprOk (env : Env) : Prop :=
  (∀ x, env.parseF (env.reprF x) = some x ∧ strSlash (env.reprF x) = false) ∧
  ∀ x y, env.parseC (env.reprC x y) = some (x, y) ∧ strSlash (env.reprC x y) = false

theorem PlainHeap.good {env : Env} {H : Heap} (h : PlainHeap env H) (hr : ReprOk env) : GoodHeap (fun _ => False) env H := by
  have nat : ∀ (a : Addr) (o : Obj), H[a]? = some o → NativeOk o = true := fun a o ho => h.native o (List.mem_of_getElem? ho)
  have cls : ∀ (o : Obj), NativeOk o = true → GoodCls (fun _ => False) env o.cls ∧ ObjOk env o :=
    fun ⟨cl, v⟩ hn => ⟨goodCls_native hn, objOk_native hn⟩
  refine ⟨fun a o ho => cls o (nat a o ho), h.wf, h.nums, h.knums, h.sets, ?_, h.sparse, h.oarrs, h.unit⟩
  intro a o es ho hv
  refine ⟨(h.keys a o es ho hv).1, fun k v hkv q hq => ?_⟩
  have hn := nat k q hq
  obtain ⟨cl, v⟩ := q
  refine ⟨(h.keys a o es ho hv).2 k _ hkv _ hq, ?_, ?_, ?_, fun x _ => hr.1 x, fun x y _ => hr.2 x y⟩
  · rintro s rfl; cases cl <;> simp [NativeOk] at hn; rfl
  · rintro s rfl; cases cl <;> simp [NativeOk] at hn; rfl
  · rintro k rfl; simp [NativeOk] at hn

/-- **C01 for built-in types**, without any mention of loader modules: a process without third
party loaders. -/
theorem C01_builtins {a : DumpArgs} {s s' : Session} (hmods : ∀ p, a.env.mods p = none) (hrepr : ReprOk a.env) (hs : FileOk (fun _ => False) s)
    (hg : PlainHeap a.env a.heap) (hacyclic : ∃ rk, Ranked a.heap rk) (ha : a.obj < a.heap.length) (ho : OptsOk a s.store)
    (h : dumpTop a s = (.ok (), s')) : Loads (fun _ => False) a.env s'.store a.path fun L b => Copy a.heap L b a.obj :=
  C01_round_trip ⟨fun p lm hp => by rw [hmods] at hp; simp at hp, fun k hk => hk.elim, hs, hg.good hrepr, hacyclic, ha, ho, h⟩

/-- the hypotheses are met: a dict with a float key and a list that contains it twice -/
example : ∃ s', dumpTop (Ex.args Ex.plain 5) Ex.file0 = (.ok (), s') ∧
    Loads (fun _ => False) Ex.env s'.store [] fun L b => Copy Ex.plain L b 5 := by
  obtain ⟨s', h⟩ := Ex.good_of (H := Ex.plain) (obj := 5) (by decide +kernel)
  have hp : PlainHeap Ex.env Ex.plain :=
    ⟨by decide +kernel, h.graph.wf, h.graph.nums, h.graph.knums, h.graph.sets, fun a o es h1 h2 => ⟨(h.graph.keys a o es h1 h2).1, fun k v hkv q hq =>
      ((h.graph.keys a o es h1 h2).2 k v hkv q hq).1⟩,
      h.graph.sparse, h.graph.oarrs, h.graph.unit⟩
  exact ⟨s', h.returns, C01_builtins (a := Ex.args Ex.plain 5) (fun _ => rfl)
    ⟨fun x => ⟨Ex.parse_repr x, Ex.slash_reprF x⟩, fun x y => ⟨Ex.parse_reprC x y, Ex.slash_reprC x y⟩⟩
    (newFile_ok RegInv.initial) hp h.acyclic h.obj h.opts h.returns⟩

end Verif
