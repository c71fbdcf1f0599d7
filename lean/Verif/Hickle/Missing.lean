import Verif.Hickle.Stored
/-!
# Classes that are gone when the file is read

`Env.without env gone`: the world of `env` in which the classes `gone` can not be imported.  A dump is a
dump in that world too: writing never asks whether classes can be imported later.
-/
namespace Verif

variable {P : Nat → Prop}

/-- the classes in `gone` were removed or renamed since the file was written: `pickle.loads` of a
reference to them raises (lookup.py:707-720) -/
def Env.without (env : Env) (gone : Nat → Bool) : Env :=
  { env with u := fun k => { env.u k with importable := (env.u k).importable && !gone k } }

section
variable {env : Env} {gone : Nat → Bool}

theorem mro_without (c : Cls) : c.mro (env.without gone).u = c.mro env.u := by cases c <;> rfl

theorem name_without (c : Cls) : c.name (env.without gone).u = c.name env.u := by cases c <;> rfl

theorem origin_without (c : Cls) : c.origin (env.without gone).u = c.origin env.u := by cases c <;> rfl

theorem expected_without (c : Cls) : expected (env.without gone) c = expected env c := by
  unfold expected; rw [mro_without]

theorem GoodCls.without {c : Cls} (h : GoodCls P env c) : GoodCls P (env.without gone) c := by
  intro k hk
  rw [mro_without] at hk
  rw [origin_without]
  exact h k hk

theorem GoodCls.before {c : Cls} (h : GoodCls P (env.without gone) c) : GoodCls P env c := by
  intro k hk
  have := h k (by rw [mro_without]; exact hk)
  rwa [origin_without] at this

theorem keySlot_without (o : Obj) : keySlot (env.without gone) o = keySlot env o := by
  unfold keySlot
  rw [name_without]
  rfl

theorem dictSubs_without (H : Heap) (i : Nat) (es : List (Addr × Addr)) : dictSubs (env.without gone) H i es = dictSubs env H i es := by
  induction es generalizing i with
  | nil => rfl
  | cons e es ih => simp only [dictSubs, ih, dictSub, keySlot_without]

theorem OList.without {H : Heap} {o l} (h : OList env H o l) : OList (env.without gone) H o l := by
  cases h with
  | one h => exact .one h
  | zero h1 h2 h3 => exact .zero h1 h2 (by rw [mro_without]; exact h3)

theorem Head.without {H : Heap} {fn o at' od subs} (h : Head env H fn o at' od subs) : Head (env.without gone) H fn o at' od subs := by
  cases h with
  | intBig h1 h2 h3 => exact .intBig h1 h2 h3
  | int h1 h2 => exact .int h1 h2
  | bool h => exact .bool h
  | float h => exact .float h
  | cplx h => exact .cplx h
  | none => exact .none
  | str h1 h2 h3 => exact .str h1 h2 (by rw [name_without]; exact h3)
  | bytes h1 h2 => exact .bytes h1 (by rw [name_without]; exact h2)
  | seqNil h => exact .seqNil h
  | setNil h => exact .setNil h
  | seqVec h1 h2 h3 h4 => exact .seqVec h1 h2 h3 h4
  | setVec h1 h2 h3 h4 => exact .setVec h1 h2 h3 h4
  | seqItems h1 h2 h3 h4 => exact .seqItems h1 h2 h3 h4
  | setItems h1 h2 h3 => exact .setItems h1 h2 h3
  | dict h => rw [← dictSubs_without (gone := gone)]; exact .dict h
  | np h1 h2 => exact .np h1 h2
  | arr h1 h2 => exact .arr h1 h2
  | sstr h1 h2 h3 => exact .sstr h1 h2 h3
  | rowsNil h1 h2 => exact .rowsNil h1 h2
  | rows h1 h2 h3 h4 h5 => exact .rows h1 h2 h3 h4 h5
  | oseq h1 h2 h3 => exact .oseq h1.without h2 h3
  | oone h1 h2 h3 h4 h5 => exact .oone h1 h2 (by simpa only [mro_without] using h3) h4 h5
  | masked h1 h2 => exact .masked h1 h2
  | sparse h1 h2 => exact .sparse h1 h2
  | pickled h => exact .pickled h

theorem EntryOk.without {S : Store} {cls e} (h : EntryOk env S cls e) : EntryOk (env.without gone) S cls e := by
  obtain ⟨nd, b, bn, h1, h2, h3, h4, h5⟩ := h
  exact ⟨nd, b, bn, h1, h2, h3, h4, by rw [expected_without]; exact h5⟩

theorem TypeOk.without {S : Store} {cls at'} (h : TypeOk env S cls at') : TypeOk (env.without gone) S cls at' := by
  rcases h with ⟨h1, h2⟩ | ⟨h1, e, h2, h3⟩
  · exact .inl ⟨by rw [expected_without]; exact h1, h2⟩
  · exact .inr ⟨by rw [expected_without]; exact h1, e, h2, h3.without⟩

theorem NodeOk.without {base : Nat} {H : Heap} {S : Store} {W : Rel} {n a} (h : NodeOk env base H S W n a) :
    NodeOk (env.without gone) base H S W n a := by
  obtain ⟨o, nd, od, subs, h1, h2, h3, h4, h5⟩ := h
  exact ⟨o, nd, od, subs, h1, h2, h3.without, by rw [expected_without]; exact h4.without, h5⟩

theorem Dumped.without {H0 H : Heap} {S : Store} {W : Rel} {m a} (h : Dumped env H0 H S W m a) : Dumped (env.without gone) H0 H S W m a :=
  { pre := h.pre, temps := h.temps, uniq := h.uniq, root := h.root
    nodes := fun n b hw => (h.nodes n b hw).without
    one := fun n n' b o h1 h2 h3 h4 => h.one n n' b o h1 h2 h3 (by rw [expected_without] at h4; exact h4) }

/-- a complete dump stays one when classes go away -/
theorem Stored.without {S : Store} {p H a} (h : Stored env S p H a) (gone : Nat → Bool) : Stored (env.without gone) S p H a := by
  obtain ⟨H', W, g, T, m, N, M', h⟩ := h
  refine ⟨H', W, g, T, m, N, M', { h with dumped := h.dumped.without, tab := ?_ }⟩
  obtain ⟨es, h1, h2⟩ := h.tab
  refine ⟨es, h1, fun e he => ?_⟩
  obtain ⟨nd, h3, h4⟩ := h2 e he
  refine ⟨nd, h3, h4.imp_right ?_⟩
  rintro ⟨cls, h5, h6⟩
  exact ⟨cls, h5, h6.without⟩

theorem keyView_without (H : Heap) (fuel : Nat) (a : Addr) : keyView (env.without gone).u H fuel a = keyView env.u H fuel a := by
  induction fuel generalizing a with
  | zero => rfl
  | succ fuel ih =>
    have hf : keyView (env.without gone).u H fuel = keyView env.u H fuel := funext ih
    simp only [keyView, mro_without, hf]

theorem Distinct.without {H : Heap} {as : List Addr} (h : Distinct env H as) : Distinct (env.without gone) H as := by
  have hv : ∀ a, view (env.without gone).u H a = view env.u H a := fun a => keyView_without H _ a
  simp only [Distinct, hv]
  exact h

theorem ObjOk.without {o : Obj} (h : ObjOk env o) (hl : o.lost (env.without gone) = false) : ObjOk (env.without gone) o := by
  obtain ⟨cl, v⟩ := o
  cases cl with
  | user k =>
    obtain ⟨h1, h2⟩ := h
    refine ⟨by simpa [Obj.lost] using hl, ?_⟩
    rw [expected_without]
    exact h2
  | _ => exact h

/-- Instances of the missing classes: empty lists and tuples, strings, and what is neither pickled
nor of a class derived from a built-in class are excluded. -/
theorem ObjOk.lostOk {o : Obj} (h : ObjOk env o) (hl : o.lost (env.without gone) = true) (hne : o.val ≠ .seq []) : LostOk (env.without gone) o := by
  obtain ⟨cl, v⟩ := o
  cases cl with
  | user k =>
    obtain ⟨_, h2⟩ := h
    have hfn : ∀ {b fn}, (expected env (.user k)).2.base = b → (∀ c e, stdReg c = some e → e.2.base = b → e.2.fn = fn) →
        b ≠ "pickle" → (expected env (.user k)).2.fn = fn := by
      intro b fn hb hall hp
      unfold expected at hb ⊢
      cases hf : firstStd (Cls.mro env.u (.user k)) with
      | none => rw [hf] at hb; exact absurd hb.symm hp
      | some e =>
        rw [hf] at hb
        obtain ⟨c, p, hc⟩ : ∃ c p, stdReg c = some (p, e) := by
          clear hb
          generalize Cls.mro env.u (.user k) = l at hf
          induction l with
          | nil => simp [firstStd] at hf
          | cons x l ih =>
            unfold firstStd at hf
            split at hf
            · next p e' he => simp at hf; subst hf; exact ⟨_, _, he⟩
            · exact ih hf
        exact hall c _ hc hb
    have hall : ∀ c e, stdReg c = some e → ((e.2.base = "list" ∨ e.2.base = "tuple" ∨ e.2.base = "bytes") → e.2.fn = .listlike) ∧
        (e.2.base = "set" → e.2.fn = .setlike) ∧ (e.2.base = "dict" → e.2.fn = .dictlike) ∧
        ((e.2.base = "int" ∨ e.2.base = "float" ∨ e.2.base = "complex") → e.2.fn = .scalar) := by
      intro c e he
      cases c <;> simp [stdReg] at he <;> subst he <;> simp
    unfold LostOk
    simp only [expected_without]
    cases v <;> simp only at h2 hne ⊢
    · exact hfn h2.1 (fun c e h h' => (hall c e h).2.2.2 (.inl h')) (by decide)
    · exact hfn h2.1 (fun c e h h' => (hall c e h).2.2.2 (.inr (.inl h'))) (by decide)
    · exact hfn h2.1 (fun c e h h' => (hall c e h).2.2.2 (.inr (.inr h'))) (by decide)
    · exact hfn h2.1 (fun c e h h' => (hall c e h).1 (.inr (.inr h'))) (by decide)
    · refine ⟨fun e => hne (by rw [e]), ?_⟩
      rcases h2.1 with hb | hb
      · exact hfn hb (fun c e h h' => (hall c e h).1 (.inl h')) (by decide)
      · exact hfn hb (fun c e h h' => (hall c e h).1 (.inr (.inl h'))) (by decide)
    · exact hfn h2.1 (fun c e h h' => (hall c e h).2.1 h') (by decide)
    · exact hfn h2.1 (fun c e h h' => (hall c e h).2.2.1 h') (by decide)
    · exact h2
  | _ => simp [Obj.lost] at hl

/-- the object graphs of the round trip stay fit for recovery when classes go away, as long as
instances of these are not empty sequences and not inside set elements, dict keys and arrays of
objects -/
theorem GoodHeap.lose {H : Heap} (h : GoodHeap P env H) (gone : Nat → Bool)
    (hne : ∀ (a : Addr) (o : Obj), H[a]? = some o → o.lost (env.without gone) = true → o.val ≠ .seq [])
    (hset : ∀ (a : Addr) (o : Obj) items, H[a]? = some o → o.val = .set items → ∀ x ∈ items, Live (env.without gone) H x)
    (hdict : ∀ (a : Addr) (o : Obj) es, H[a]? = some o → o.val = .dict es → ∀ e ∈ es, Live (env.without gone) H e.1)
    (harr : ∀ (a : Addr) (o : Obj) sh items, H[a]? = some o → o.val = .oarr sh items → ∀ x ∈ items, Live (env.without gone) H x) :
    GoodGraph P (env.without gone) H where
  cls a o ho := (h.cls a o ho).1.without
  ok a o ho hl := (h.cls a o ho).2.without hl
  lost a o ho hl := (h.cls a o ho).2.lostOk hl (hne a o ho hl)
  wf := h.wf
  nums a o items ho hv _ := h.nums a o items ho hv
  knums a o es ho hv _ := h.knums a o es ho hv
  sets a o items ho hv _ := ⟨(h.sets a o items ho hv).without, hset a o items ho hv⟩
  keys a o es ho hv _ := ⟨(h.keys a o es ho hv).1.without, fun k v hk => ⟨hdict a o es ho hv _ hk, (h.keys a o es ho hv).2 k v hk⟩⟩
  sparse := h.sparse
  oarrs a o sh items ho hv := ⟨h.oarrs a o sh items ho hv, fun x hx q hq => harr a o sh items ho hv x hx x q .here hq⟩
  unit := h.unit

end

end Verif
