import Verif.Props.C42
import Verif.Props.C54
/-!
# C42: astropy objects anywhere in a graph of objects

C42 is about the functions that store and load one astropy object.  Here these functions are registered with the drivers of dump and load
(`Verif/Hickle/Custom.lean`), next to lists, and C54 gives the property for graphs.

Simplification: of the containers lists are registered, as groups (lists that are stored as one array hold no astropy objects).
-/
namespace Verif.Custom.Astropy

open Verif.Astro

/-- what an object holds besides references -/
inductive Data where
  | list
  | quantity (q : Quantity)
  | angle (q : Quantity)
  | sky (s : SkyCoord)
  | time (t : Time)
  | const (c : Constant)
  /-- an object of another class, which is pickled -/
  | other (n : Nat)
  deriving DecidableEq

/-- values of attributes -/
inductive AttrVal where
  | bytes (b : Bytes)
  | num (x : F64)
  | width (w : Option Nat)
  | int (n : Nat)

/-- content of a node: group, dataset, pickle string (of a class and a value) -/
inductive Pay (C : Type) where
  | group
  | data (d : Dset)
  | blob (c : C) (d : Data)

/-- what a container has been given -/
structure Box (C : Type) where
  cls : C
  pay : Pay C
  attrs : Attrs AttrVal
  got : List (Nat × Nat)

variable {C : Type}

/-! ## objects that refer to no others -/

/-- `class_register` entries (load_astropy.py:391-398): the function that makes the dataset, with its attributes, and the function that loads it -/
def leaf (cls : C) (base : String) (enc : Data → Except PyErr (Dset × Attrs AttrVal)) (dec : Dset → Attrs AttrVal → Except PyErr Data) :
    Reg C Data AttrVal (Pay C) (Box C) where
  cls := cls
  base := base
  create := fun H o => match o.kids with
    | [] => (enc o.data).map fun n => ⟨.data n.1, n.2, [], H⟩
    | _ :: _ => .error .unmodelled
  restorer :=
    { init := fun p attrs c => ⟨c, p, attrs, []⟩
      append := fun _ _ _ _ => .error .unmodelled
      convert := fun k h => match k.pay with
        | .data d => (dec d k.attrs).map fun v => (h.length, h ++ [⟨k.cls, v, []⟩])
        | _ => .error .unmodelled }

/-- `create_astropy_quantity` (load_astropy.py:39-42) with the node it makes; `create_astropy_angle` (68-71) -/
def encQuantity (lib : Lib) (q : Quantity) : Except PyErr (Dset × Attrs AttrVal) :=
  (createQuantity lib q).map fun n => (.nums n.data, [("unit", .bytes n.unit)])

/-- `load_astropy_quantity_dataset` (217-235), `load_astropy_angle_dataset` (273-292) -/
def decQuantity (lib : Lib) (d : Dset) (attrs : Attrs AttrVal) : Except PyErr Quantity :=
  match d, Assoc.get? attrs "unit" with
  | .nums a, some (.bytes u) => loadQuantity lib ⟨a, u⟩
  | _, _ => .error .keyError

/-- `create_astropy_skycoord` (96-106) -/
def encSky (lib : Lib) (s : SkyCoord) : Except PyErr (Dset × Attrs AttrVal) :=
  (createSky lib s).map fun n => (.nums n.data, [("lon_unit", .bytes n.lonUnit), ("lat_unit", .bytes n.latUnit)])

/-- `load_astropy_skycoord_dataset` (295-321) -/
def decSky (lib : Lib) (d : Dset) (attrs : Attrs AttrVal) : Except PyErr SkyCoord :=
  match d, Assoc.get? attrs "lon_unit", Assoc.get? attrs "lat_unit" with
  | .nums a, some (.bytes u), some (.bytes v) => loadSky lib ⟨a, u, v⟩
  | _, _, _ => .error .keyError

/-- `create_astropy_time` (132-148) -/
def encTime (lib : Lib) (filters : Bool) (t : Time) : Except PyErr (Dset × Attrs AttrVal) :=
  (createTime lib filters t).map fun n => (n.data, [("np_dtype", .width n.dtype), ("format", .bytes n.format), ("scale", .bytes n.scale)])

/-- `load_astropy_time_dataset` (238-270) -/
def decTime (lib : Lib) (d : Dset) (attrs : Attrs AttrVal) : Except PyErr Time :=
  match Assoc.get? attrs "np_dtype", Assoc.get? attrs "format", Assoc.get? attrs "scale" with
  | some (.width w), some (.bytes f), some (.bytes s) => loadTime lib ⟨d, w, f, s⟩
  | _, _, _ => .error .keyError

/-- `create_astropy_constant` (172-183) -/
def encConst (lib : Lib) (c : Constant) : Except PyErr (Dset × Attrs AttrVal) :=
  (createConst lib c).map fun n => (.nums ⟨.float64, [], [.f n.data]⟩,
    [("unit", .bytes n.unit), ("abbrev", .bytes n.abbrev_), ("name", .bytes n.name), ("reference", .bytes n.reference), ("uncertainty", .num n.uncertainty)] ++
      match n.system with
      | some s => [("system", .bytes s)]
      | none => [])

/-- `load_astropy_constant_dataset` (324-354) -/
def decConst (lib : Lib) (d : Dset) (attrs : Attrs AttrVal) : Except PyErr Constant :=
  match d, Assoc.get? attrs "unit", Assoc.get? attrs "abbrev", Assoc.get? attrs "name", Assoc.get? attrs "reference", Assoc.get? attrs "uncertainty" with
  | .nums ⟨_, _, [.f x]⟩, some (.bytes u), some (.bytes a), some (.bytes n), some (.bytes r), some (.num y) =>
    match Assoc.get? attrs "system" with
    | none => loadConst lib ⟨x, u, a, n, r, y, none⟩
    | some (.bytes s) => loadConst lib ⟨x, u, a, n, r, y, some s⟩
    | some _ => .error .unmodelled
  | _, _, _, _, _, _ => .error .keyError

/-! ## lists -/

/-- `provide_listlike_items` (load_builtins.py:192-195) -/
def listItems : Nat → List Nat → List (Sub AttrVal)
  | _, [] => []
  | i, z :: zs => ⟨"data" ++ Nat.repr i, z, [("item_index", .int i)]⟩ :: listItems (i + 1) zs

/-- the items in the order of their positions -/
def collect (got : List (Nat × Nat)) : Nat → Nat → Option (List Nat)
  | _, 0 => some []
  | i, n + 1 => match Assoc.get? got i, collect got (i + 1) n with
    | some x, some xs => some (x :: xs)
    | _, _ => none

/-- lists: the group of `create_listlike_dataset` (load_builtins.py:190-199), `ListLikeContainer` (421-459).
Simplification: two items at one position are not refused here (C36 is about that). -/
def listReg (cls : C) : Reg C Data AttrVal (Pay C) (Box C) where
  cls := cls
  base := "list"
  create := fun H o => match o.data with
    | .list => .ok ⟨.group, [("num_items", .int o.kids.length)], listItems 0 o.kids, H⟩
    | _ => .error .unmodelled
  restorer :=
    { init := fun p attrs c => ⟨c, p, attrs, []⟩
      append := fun k _ x attrs => match Assoc.get? attrs "item_index" with
        | some (.int i) => .ok { k with got := (i, x) :: k.got }
        | _ => .error .keyError
      convert := fun k h => match Assoc.get? k.attrs "num_items" with
        | some (.int n) => match collect k.got 0 n with
          | some xs => .ok (h.length, h ++ [⟨k.cls, .list, xs⟩])
          | none => .error .valueError
        | _ => .error .keyError }

/-! ## all of them -/

/-- the classes -/
structure Classes (C : Type) where
  list : C
  quantity : C
  angle : C
  sky : C
  time : C
  const : C

/-- what is registered: lists and `class_register` of load_astropy.py (391-398) without tables -/
def registers (lib : Lib) (filters : Bool) (cs : Classes C) : List (Reg C Data AttrVal (Pay C) (Box C)) :=
  [ listReg cs.list,
    leaf cs.quantity "astropy_quantity" (fun d => match d with | .quantity q => encQuantity lib q | _ => .error .unmodelled)
      fun d at' => (decQuantity lib d at').map .quantity,
    leaf cs.time "astropy_time" (fun d => match d with | .time t => encTime lib filters t | _ => .error .unmodelled)
      fun d at' => (decTime lib d at').map .time,
    leaf cs.angle "astropy_angle" (fun d => match d with | .angle q => encQuantity lib q | _ => .error .unmodelled)
      fun d at' => (decQuantity lib d at').map .angle,
    leaf cs.sky "astropy_skycoord" (fun d => match d with | .sky s => encSky lib s | _ => .error .unmodelled)
      fun d at' => (decSky lib d at').map .sky,
    leaf cs.const "astropy_constant" (fun d => match d with | .const c => encConst lib c | _ => .error .unmodelled)
      fun d at' => (decConst lib d at').map .const ]

/-- the objects of the theorems of C42: numbers are float64, coordinates are ICRS without distance, times are those their value determines, texts are ASCII;
constants are of a system -/
def Fits (lib : Lib) (filters : Bool) : Data → Prop
  | .list => True
  | .quantity q => FloatArr q.value
  | .angle q => FloatArr q.value
  | .sky s => FloatArr s.lon ∧ FloatArr s.lat ∧ s.lon.shape = s.lat.shape ∧ s.lon.data.length = s.lat.data.length ∧ s.frame = 0 ∧ s.distance = none
  | .time t => ascii t.format = true ∧ ascii t.scale = true ∧ Storable filters (lib.valueOf t.format t.scale t.instant) ∧
      lib.instantOf t.format t.scale (lib.valueOf t.format t.scale t.instant) = some t.instant ∧ t.extra = 0
  | .const c => TextOf c.abbrev_ ∧ TextOf c.name ∧ TextOf c.reference ∧ ∃ s, c.system = some (.str s) ∧ ascii s = true ∧ s ≠ []
  | .other _ => True

/-! ### proofs -/

theorem leaf_ok {core : Core C Data AttrVal (Pay C) (Box C)} {lib : Lib} {filters : Bool} {cls : C} {base : String} {enc : Data → Except PyErr (Dset × Attrs AttrVal)}
    {dec : Dset → Attrs AttrVal → Except PyErr Data}
    (h : ∀ v n, Fits lib filters v → enc v = .ok n → ∀ attrs, Agrees n.2 attrs → dec n.1 attrs = .ok v) :
    LoaderFor core (fun o => Fits lib filters o.data) (fun _ => True) (leaf cls base enc dec) := by
  refine ⟨fun H o m hm => ?_, fun H a o m hf _ _ hm => ?_, fun _ _ _ => rfl⟩
  · obtain ⟨c, v, ks⟩ := o
    cases ks with
    | nil =>
      simp only [leaf] at hm
      cases he : enc v with
      | error e => rw [he] at hm; simp [Except.map] at hm
      | ok n => rw [he] at hm; simp [Except.map] at hm; subst hm; exact List.prefix_rfl
    | cons z ks => simp [leaf] at hm
  · obtain ⟨c, v, ks⟩ := o
    cases ks with
    | cons z ks => simp [leaf] at hm
    | nil =>
      simp only [leaf] at hm
      cases he : enc v with
      | error e => rw [he] at hm; simp [Except.map] at hm
      | ok n =>
        rw [he] at hm; simp [Except.map] at hm; subst hm
        intro Hf _ R L0 _ attrs hat its hp _
        have : its = [] := by
          have := hp.length_eq
          simpa using this
        subst this
        refine ⟨_, L0.length, L0 ++ [⟨c, v, []⟩], ⟨c, v, []⟩, rfl, ?_, ⟨_, rfl⟩, by simp, rfl, rfl, .nil, fun _ => Nat.le_refl _⟩
        simp only [leaf]
        rw [h v n hf he attrs hat]
        rfl

theorem quantity_back {lib : Lib} (hu : UnitsOk lib) {q : Quantity} (hq : FloatArr q.value) {n} (h : encQuantity lib q = .ok n) {attrs : Attrs AttrVal} (hat : Agrees n.2 attrs) :
    decQuantity lib n.1 attrs = .ok q := by
  obtain ⟨m, h1, h2⟩ := C42_quantity_exact hu hq.1 hq.2
  simp only [encQuantity, h1, Except.map, Except.ok.injEq] at h
  subst h
  have hu := hat "unit" (.bytes m.unit) (by simp [Assoc.get?])
  simp only [decQuantity, hu]
  exact h2

theorem sky_back {lib : Lib} (hu : UnitsOk lib) {filters : Bool} {s : SkyCoord} (hs : Fits lib filters (.sky s)) {n} (h : encSky lib s = .ok n) {attrs : Attrs AttrVal} (hat : Agrees n.2 attrs) :
    decSky lib n.1 attrs = .ok s := by
  obtain ⟨a1, a2, a3, a4, a5, a6⟩ := hs
  obtain ⟨m, h1, h2⟩ := C42_skycoord_partial hu a1 a2 a3 a4 a5 a6
  simp only [encSky, h1, Except.map, Except.ok.injEq] at h
  subst h
  have hu := hat "lon_unit" (.bytes m.lonUnit) (by simp [Assoc.get?])
  have hv := hat "lat_unit" (.bytes m.latUnit) (by simp [Assoc.get?])
  simp only [decSky, hu, hv]
  exact h2

theorem time_back {lib : Lib} {filters : Bool} {t : Time} (ht : Fits lib filters (.time t)) {n} (h : encTime lib filters t = .ok n) {attrs : Attrs AttrVal} (hat : Agrees n.2 attrs) :
    decTime lib n.1 attrs = .ok t := by
  obtain ⟨a1, a2, a3, a4, a5⟩ := ht
  obtain ⟨m, h1, h2⟩ := C42_time_partial a1 a2 a3 a4 a5
  simp only [encTime, h1, Except.map, Except.ok.injEq] at h
  subst h
  have e1 := hat "np_dtype" (.width m.dtype) (by simp [Assoc.get?])
  have e2 := hat "format" (.bytes m.format) (by simp [Assoc.get?])
  have e3 := hat "scale" (.bytes m.scale) (by simp [Assoc.get?])
  simp only [decTime, e1, e2, e3]
  exact h2

theorem const_back {lib : Lib} (hu : UnitsOk lib) (htx : lib.attrText = true) {filters : Bool} {c : Constant} (hc : Fits lib filters (.const c)) {n} (h : encConst lib c = .ok n)
    {attrs : Attrs AttrVal} (hat : Agrees n.2 attrs) : decConst lib n.1 attrs = .ok c := by
  obtain ⟨a1, a2, a3, s, a4, a5, a6⟩ := hc
  obtain ⟨m, h1, h2⟩ := C42_constant_partial hu htx a1 a2 a3 (by
    intro t ht
    rw [a4] at ht
    injection ht with ht; subst ht
    exact ⟨⟨s, rfl, a5⟩, fun h => a6 (by injection h)⟩)
  simp only [encConst, h1, Except.map, Except.ok.injEq] at h
  subst h
  obtain ⟨x, u, a, nm, r, y, sys⟩ := m
  have hsys : ∃ b, sys = some b := by
    cases sys with
    | some b => exact ⟨b, rfl⟩
    | none =>
      unfold loadConst at h2
      split at h2
      · simp at h2
      · simp only [Except.ok.injEq] at h2; subst h2; simp at a4
  obtain ⟨b, rfl⟩ := hsys
  have e1 := hat "unit" (.bytes u) (by simp [Assoc.get?])
  have e2 := hat "abbrev" (.bytes a) (by simp [Assoc.get?])
  have e3 := hat "name" (.bytes nm) (by simp [Assoc.get?])
  have e4 := hat "reference" (.bytes r) (by simp [Assoc.get?])
  have e5 := hat "uncertainty" (.num y) (by simp [Assoc.get?])
  have e6 := hat "system" (.bytes b) (by simp [Assoc.get?])
  simp only [decConst, e1, e2, e3, e4, e5, e6]
  exact h2

/-! lists -/

theorem mem_listItems {i : Nat} {ks : List Nat} {sub : Sub AttrVal} (h : sub ∈ listItems i ks) : ∃ j, ks[j]? = some sub.addr ∧ sub.attrs = [("item_index", .int (i + j))] := by
  induction ks generalizing i with
  | nil => simp [listItems] at h
  | cons z ks ih =>
    simp only [listItems, List.mem_cons] at h
    rcases h with rfl | h
    · exact ⟨0, rfl, rfl⟩
    · obtain ⟨j, h1, h2⟩ := ih h
      exact ⟨j + 1, by simpa using h1, by rw [h2]; congr 3; omega⟩

theorem listItems_mem {i : Nat} {ks : List Nat} {j z : Nat} (h : ks[j]? = some z) : ⟨"data" ++ Nat.repr (i + j), z, [("item_index", .int (i + j))]⟩ ∈ listItems i ks := by
  induction ks generalizing i j with
  | nil => simp at h
  | cons y ks ih =>
    simp only [listItems, List.mem_cons]
    cases j with
    | zero => simp at h; subst h; exact .inl rfl
    | succ j =>
      have := ih (i := i + 1) (j := j) (by simpa using h)
      have e : i + 1 + j = i + (j + 1) := by omega
      rw [e] at this
      exact .inr this

theorem listItems_kids {i : Nat} {ks : List Nat} {sub : Sub AttrVal} (h : sub ∈ listItems i ks) : sub.addr ∈ ks := by
  obtain ⟨j, h1, _⟩ := mem_listItems h
  exact List.mem_of_getElem? h1

/-- the position of an item -/
def posOf (s : Sub AttrVal) : Nat := match Assoc.get? s.attrs "item_index" with
  | some (.int i) => i
  | _ => 0

/-- positions and copies of the items -/
def gotOf (its : List (Sub AttrVal × Nat × Attrs AttrVal)) (got : List (Nat × Nat)) : List (Nat × Nat) :=
  its.foldl (fun g i => (posOf i.1, i.2.1) :: g) got

theorem mem_gotOf {its : List (Sub AttrVal × Nat × Attrs AttrVal)} {got : List (Nat × Nat)} {p : Nat × Nat} :
    p ∈ gotOf its got ↔ p ∈ got ∨ ∃ i ∈ its, p = (posOf i.1, i.2.1) := by
  induction its generalizing got with
  | nil => simp [gotOf]
  | cons i its ih =>
    simp only [gotOf, List.foldl_cons] at ih ⊢
    rw [ih]
    constructor
    · rintro (h | ⟨j, h1, h2⟩)
      · rcases List.mem_cons.1 h with h | h
        · exact .inr ⟨i, by simp, h⟩
        · exact .inl h
      · exact .inr ⟨j, by simp [h1], h2⟩
    · rintro (h | ⟨j, h1, h2⟩)
      · exact .inl (by simp [h])
      · rcases List.mem_cons.1 h1 with rfl | h1
        · exact .inl (by simp [h2])
        · exact .inr ⟨j, h1, h2⟩

theorem fill_list {cls : C} (its : List (Sub AttrVal × Nat × Attrs AttrVal))
    (h : ∀ i ∈ its, (∃ j, Assoc.get? i.1.attrs "item_index" = some (.int j)) ∧ Agrees i.1.attrs i.2.2) (k : Box C) :
    fill (listReg cls).restorer k (its.map fun i => (i.1.name, i.2)) = .ok { k with got := gotOf its k.got } := by
  induction its generalizing k with
  | nil => rfl
  | cons i its ih =>
    obtain ⟨⟨j, h1⟩, h2⟩ := h i (by simp)
    have h3 := h2 _ _ h1
    have h4 : posOf i.1 = j := by simp only [posOf, h1]
    simp only [List.map_cons, fill]
    have : (listReg cls).restorer.append k i.1.name i.2.1 i.2.2 = .ok { k with got := (j, i.2.1) :: k.got } := by
      simp only [listReg, h3]
    rw [this]
    simp only []
    rw [ih (fun i hi => h i (by simp [hi]))]
    simp [gotOf, h4]

theorem collect_some {R : Nat → Nat → Prop} {got : List (Nat × Nat)} (i : Nat) (ks : List Nat) (h : ∀ j z, ks[j]? = some z → ∃ x, Assoc.get? got (i + j) = some x ∧ R x z) :
    ∃ xs, collect got i ks.length = some xs ∧ All2 R xs ks := by
  induction ks generalizing i with
  | nil => exact ⟨[], rfl, .nil⟩
  | cons z ks ih =>
    obtain ⟨x, h1, h2⟩ := h 0 z rfl
    obtain ⟨xs, h3, h4⟩ := ih (i + 1) (by
      intro j w hj
      have := h (j + 1) w (by simpa using hj)
      have e : i + 1 + j = i + (j + 1) := by omega
      rw [e]; exact this)
    simp only [Nat.add_zero] at h1
    exact ⟨x :: xs, by simp [collect, h1, h3], .cons h2 h4⟩

theorem list_ok {core : Core C Data AttrVal (Pay C) (Box C)} {fits : Obj C Data → Prop} (cls : C) : LoaderFor core fits (fun _ => True) (listReg cls) := by
  refine ⟨fun H o m h => ?_, fun H a o m _ _ _ h => ?_, fun _ _ _ => rfl⟩
  · simp only [listReg] at h
    split at h
    · simp at h; subst h; exact List.prefix_rfl
    · simp at h
  · simp only [listReg] at h
    split at h
    · next hdat =>
      simp at h; subst h
      intro Hf _ R L0 _ attrs hat its hp hit
      have hsub : ∀ i ∈ its, i.1 ∈ listItems 0 o.kids := fun i hi => hp.mem_iff.1 (List.mem_map.2 ⟨i, hi, rfl⟩)
      have hfill := fill_list (cls := cls) its (by
        intro i hi
        obtain ⟨j, _, h2⟩ := mem_listItems (hsub i hi)
        exact ⟨⟨0 + j, by rw [h2]; simp [Assoc.get?]⟩, (hit i hi).2⟩) ⟨o.cls, .group, attrs, []⟩
      obtain ⟨xs, h1, h2⟩ := collect_some (R := R) (got := gotOf its []) 0 o.kids (by
        intro j z hj
        have hm := listItems_mem (i := 0) hj
        obtain ⟨i, hi, e⟩ := List.mem_map.1 (hp.mem_iff.2 hm)
        have : (0 + j, i.2.1) ∈ gotOf its [] := mem_gotOf.2 (.inr ⟨i, hi, by rw [e]; simp [posOf, Assoc.get?]⟩)
        obtain ⟨x, hx⟩ := Ex.get?_some_of_mem this
        refine ⟨x, hx, ?_⟩
        rcases mem_gotOf.1 (Assoc.get?_mem hx) with h | ⟨i', hi', e'⟩
        · simp at h
        · obtain ⟨j', g1, g2⟩ := mem_listItems (hsub i' hi')
          simp only [posOf, g2] at e'
          simp [Assoc.get?] at e'
          obtain ⟨rfl, rfl⟩ := e'
          rw [hj] at g1; simp at g1
          rw [g1]; exact (hit i' hi').1)
      have hn := hat "num_items" (.int o.kids.length) (by simp [Assoc.get?])
      refine ⟨_, L0.length, L0 ++ [⟨o.cls, .list, xs⟩], ⟨o.cls, .list, xs⟩, hfill, ?_, ⟨_, rfl⟩, by simp, rfl, hdat.symm, all2_imp h2 fun _ _ h => .inl h, fun _ => Nat.le_refl _⟩
      simp only [listReg, hn, h1]
    · simp at h

/-! all of them -/

theorem regs_ok {core : Core C Data AttrVal (Pay C) (Box C)} {lib : Lib} (hu : UnitsOk lib) (ht : lib.attrText = true) {filters : Bool} {cs : Classes C} :
    ∀ r ∈ registers lib filters cs, LoaderFor core (fun o => Fits lib filters o.data) (fun _ => True) r := by
  intro r hr
  simp only [registers, List.mem_cons, List.not_mem_nil, or_false] at hr
  rcases hr with rfl | rfl | rfl | rfl | rfl | rfl
  · exact list_ok _
  all_goals
    refine leaf_ok fun v n hf he attrs hat => ?_
    cases v <;> simp only [reduceCtorEq] at he
  · rw [quantity_back hu hf he hat]; rfl
  · rw [time_back hf he hat]; rfl
  · rw [quantity_back hu hf he hat]; rfl
  · rw [sky_back hu hf he hat]; rfl
  · rw [const_back hu ht hf he hat]; rfl

/-- what the dump functions make: no objects, and sub items are items of the list -/
theorem regs_subs {lib : Lib} {filters : Bool} {cs : Classes C} : ∀ r ∈ registers lib filters cs, ∀ H o m, r.create H o = .ok m →
    m.heap = H ∧ ∀ sub ∈ m.subs, sub.addr ∈ o.kids := by
  intro r hr H o m h
  have hleaf : ∀ {cls : C} {base : String} {enc dec}, (leaf cls base enc dec).create H o = .ok m → m.heap = H ∧ ∀ sub ∈ m.subs, sub.addr ∈ o.kids := by
    intro cls base enc dec h
    simp only [leaf] at h
    split at h
    · cases he : enc o.data with
      | error e => rw [he] at h; simp [Except.map] at h
      | ok n => rw [he] at h; simp [Except.map] at h; subst h; simp
    · simp at h
  simp only [registers, List.mem_cons, List.not_mem_nil, or_false] at hr
  rcases hr with rfl | rfl | rfl | rfl | rfl | rfl
  · simp only [listReg] at h
    split at h
    · simp at h; subst h; exact ⟨rfl, fun sub hs => listItems_kids hs⟩
    · simp at h
  all_goals exact hleaf h

/-- attributes of items of lists -/
def isSub (n : String) : Prop := n = "item_index"

theorem regs_apart {lib : Lib} {filters : Bool} {cs : Classes C} : ∀ r ∈ registers lib filters cs, Apart isSub r := by
  intro r hr H o m h
  have hleaf : ∀ {cls : C} {base : String} {enc dec}, (leaf cls base enc dec).create H o = .ok m → (∀ v n, enc v = .ok n → ∀ p ∈ n.2, ¬ isSub p.1 ∧ p.1 ≠ "type") →
      (∀ p ∈ m.own, ¬ isSub p.1 ∧ p.1 ≠ "type") ∧ ∀ sub ∈ m.subs, ∀ p ∈ sub.attrs, isSub p.1 ∧ p.1 ≠ "type" := by
    intro cls base enc dec h hn
    simp only [leaf] at h
    split at h
    · cases he : enc o.data with
      | error e => rw [he] at h; simp [Except.map] at h
      | ok n =>
        rw [he] at h; simp [Except.map] at h; subst h
        exact ⟨hn _ _ he, by simp⟩
    · simp at h
  simp only [registers, List.mem_cons, List.not_mem_nil, or_false] at hr
  rcases hr with rfl | rfl | rfl | rfl | rfl | rfl
  · simp only [listReg] at h
    split at h
    · simp at h; subst h
      refine ⟨by simp [isSub], fun sub hs p hp => ?_⟩
      obtain ⟨j, _, h2⟩ := mem_listItems hs
      rw [h2] at hp
      simp at hp; subst hp
      exact ⟨rfl, by simp⟩
    · simp at h
  all_goals
    refine hleaf h fun v n he => ?_
    cases v <;> simp only [reduceCtorEq] at he
  · next q => cases hc : createQuantity lib q <;> simp [encQuantity, hc, Except.map] at he; subst he; simp [isSub]
  · next q => cases hc : createTime lib filters q <;> simp [encTime, hc, Except.map] at he; subst he; simp [isSub]
  · next q => cases hc : createQuantity lib q <;> simp [encQuantity, hc, Except.map] at he; subst he; simp [isSub]
  · next q => cases hc : createSky lib q <;> simp [encSky, hc, Except.map] at he; subst he; simp [isSub]
  · next q =>
    cases hc : createConst lib q with
    | error e => simp [encConst, hc, Except.map] at he
    | ok m =>
      simp [encConst, hc, Except.map] at he; subst he
      obtain ⟨_, _, _, _, _, _, sys⟩ := m
      cases sys <;> simp [isSub]

/-- **C42 in graphs (partial).**  Quantities, angles, coordinates, times, constants, lists and pickled objects, any number of them in lists of lists, each in any number of
places: what is dumped is loaded as a copy, in which each is one object in all its places, in whatever order HDF5 gives the members of groups.  `rank` says that the lists
are not inside of themselves (C03).
What is missing: the objects that C42 is violated by, constants without a system, other containers, tables (C38). -/
theorem C42_graphs_partial [DecidableEq C] {lib : Lib} (hu : UnitsOk lib) (ht : lib.attrText = true) {filters : Bool} {cs : Classes C}
    {core : Core C Data AttrVal (Pay C) (Box C)} (hobj : core.mro core.object = [core.object]) (hpk : PickleOk core fun _ => True)
    {t : Tables C Data AttrVal (Pay C) (Box C)} (hreg : registerAll core (registers lib filters cs) = .ok t)
    {H : Heap C Data} (hfit : ∀ o ∈ H, Fits lib filters o.data) (hcl : Closed H)
    {rank : Nat → Nat} (hr : ∀ (y : Nat) (o : Obj C Data), H[y]? = some o → ∀ z ∈ o.kids, rank z < rank y) {a : Nat} (ha : a < H.length)
    {fuel : Nat} {file : File C AttrVal (Pay C)} (hdump : dumpTop (t.loaders core) fuel H a = .ok file)
    {order : List (String × Nat) → List (String × Nat)} (hord : ∀ l, (order l).Perm l) {f : Nat} (hf : 2 * (rank a + 1) ≤ f) :
    ∃ b L, loadTop (t.loaders core) order f file = .ok (b, L) ∧ Copy (fun _ => True) H L b a := by
  have hbase : (registers lib filters cs).Pairwise fun r r' => r.base ≠ r'.base := by simp [registers, listReg, leaf]
  have hsub : ∀ H o m, ((t.loaders core).entry o.cls).create H o = .ok m → H <+: m.heap ∧ ∀ sub ∈ m.subs, sub.addr ∈ o.kids := by
    intro H o m h
    rcases entry_cases hbase hreg o.cls with ⟨r, h1, _, h3⟩ | h3
    · simp only [Tables.loaders, h3, Reg.entry] at h
      obtain ⟨e1, e2⟩ := regs_subs r h1 _ _ _ h
      rw [e1]; exact ⟨List.prefix_rfl, e2⟩
    · simp [Tables.loaders, h3] at h
  refine C54_fitting_partial hobj hreg (regs_ok hu ht) (fun r hr H o m hg hm => ?_) hpk hbase regs_apart hfit hcl
    (fun Hf hp => Deep.of_rank hsub hcl hr hp (rank a + 1) a ha (by omega)) hdump hord hf
  rw [(regs_subs r hr H o m hm).1]; exact hg

/-! ### example -/

namespace Ex

/-- classes 1 to 6, 7 is derived from lists, 8 has no loader; `object` is 0 -/
def classes : Classes Nat := ⟨1, 2, 3, 4, 5, 6⟩

/-- pickle strings of objects that refer to nothing -/
def core : Core Nat Data AttrVal (Pay Nat) (Box Nat) where
  mro := fun c => if c = 0 then [0] else if c = 7 then [7, 1, 0] else [c, 0]
  object := 0
  pickle := fun H a => match H[a]? with
    | some ⟨c, d, []⟩ => .ok (.blob c d)
    | _ => .error .picklingError
  unpickle :=
    { init := fun p attrs c => ⟨c, p, attrs, []⟩
      append := fun _ _ _ _ => .error .unmodelled
      convert := fun k h => match k.pay with
        | .blob c d => .ok (h.length, h ++ [⟨c, d, []⟩])
        | _ => .error .unmodelled }
  recover :=
    { init := fun p attrs c => ⟨c, p, attrs, []⟩
      append := fun _ _ _ _ => .error .unmodelled
      convert := fun _ _ => .error .unmodelled }

theorem pickle_ok : PickleOk core fun _ => True := by
  intro H a o p ho h
  simp only [core, ho] at h
  split at h
  · next c d e =>
    simp at e; subst e
    simp at h; subst h
    intro Hf _ R L0 _ attrs _ its hp _
    have : its = [] := by
      have := hp.length_eq
      simpa using this
    subst this
    exact ⟨_, L0.length, L0 ++ [⟨c, d, []⟩], ⟨c, d, []⟩, rfl, rfl, ⟨_, rfl⟩, by simp, rfl, rfl, .nil, fun _ => Nat.le_refl _⟩
  · simp at h

/-- `q = Quantity([1., 3.], unit); d = Derived([q, Time(5)]); [q, d, q, Constant('c'), Other(9), Angle(1.), SkyCoord(1., 0.)]` -/
def heap : Heap Nat Data :=
  [⟨1, .list, [1, 2, 1, 4, 5, 6, 7]⟩,
   ⟨2, .quantity ⟨⟨.float64, [2], [.f (.fin false 1 0), .f (.fin false 3 0)]⟩, 4⟩, []⟩,
   ⟨7, .list, [1, 3]⟩,
   ⟨5, .time ⟨5, tx "s", tx "utc", 0⟩, []⟩,
   ⟨6, .const ⟨.str (tx "c"), .str (tx "Speed of light"), .fin false 299792458 0, 2, .zero, .str (tx "CODATA 2018"), some (.str (tx "si"))⟩, []⟩,
   ⟨8, .other 9, []⟩,
   ⟨3, .angle ⟨⟨.float64, [], [.f (.fin false 1 0)]⟩, 1⟩, []⟩,
   ⟨4, .sky ⟨⟨.float64, [], [.f (.fin false 1 0)]⟩, ⟨.float64, [], [.f .zero]⟩, 1, 2, 0, none⟩, []⟩]

/-- how deep references nest below an object -/
def rank : Nat → Nat
  | 0 => 2
  | 2 => 1
  | _ => 0

theorem heap_fits : ∀ o ∈ heap, Fits Verif.Astro.Ex.lib true o.data := by
  intro o ho
  simp only [heap, List.mem_cons, List.not_mem_nil, or_false] at ho
  rcases ho with rfl | rfl | rfl | rfl | rfl | rfl | rfl | rfl
  · trivial
  · exact ⟨rfl, by simp⟩
  · trivial
  · refine ⟨by decide, by decide, ?_, by decide, rfl⟩
    show TimeStrs 100 [List.replicate 5 120] ∧ _
    refine ⟨?_, by simp⟩
    intro s hs; simp only [List.mem_singleton] at hs; subst hs; decide
  · exact ⟨⟨_, rfl, by decide⟩, ⟨_, rfl, by decide⟩, ⟨_, rfl, by decide⟩, _, rfl, by decide, by decide⟩
  · trivial
  · exact ⟨rfl, by simp⟩
  · exact ⟨⟨rfl, by simp⟩, ⟨rfl, by simp⟩, rfl, rfl, rfl, rfl⟩

theorem heap_closed : Closed heap := by
  intro y o h z hz
  have : ∀ o ∈ heap, ∀ z ∈ o.kids, z < heap.length := by decide +kernel
  exact this o (List.mem_of_getElem? h) z hz

theorem heap_rank (y : Nat) (o : Obj Nat Data) (h : heap[y]? = some o) : ∀ z ∈ o.kids, rank z < rank y := by
  have : ∀ y : Fin 8, ∀ z ∈ (heap[y.1]'(y.2)).kids, rank z < rank y.1 := by decide +kernel
  obtain ⟨hy, e⟩ := List.getElem?_eq_some_iff.1 h
  subst e
  exact this ⟨y, hy⟩

/-- register, then dump -/
def trial : Except PyErr (Tables Nat Data AttrVal (Pay Nat) (Box Nat) × File Nat AttrVal (Pay Nat)) :=
  match registerAll core (registers Verif.Astro.Ex.lib true classes) with
  | .error e => .error e
  | .ok t => match dumpTop (t.loaders core) 10 heap 0 with
    | .error e => .error e
    | .ok file => .ok (t, file)

/-- the hypotheses of `C42_graphs_partial` hold of a graph with all kinds of objects; the members of groups come backwards -/
example : ∃ t file b L, registerAll core (registers Verif.Astro.Ex.lib true classes) = .ok t ∧ dumpTop (t.loaders core) 10 heap 0 = .ok file ∧
    loadTop (t.loaders core) List.reverse 6 file = .ok (b, L) ∧ Copy (fun _ => True) heap L b 0 := by
  obtain ⟨⟨t, file⟩, h⟩ := Custom.Ex.ok_of (x := trial) (by decide +kernel)
  unfold trial at h
  split at h
  · simp at h
  · next t' h1 =>
    split at h
    · simp at h
    · next file' h2 =>
      simp at h
      obtain ⟨rfl, rfl⟩ := h
      obtain ⟨b, L, h3, h4⟩ := C42_graphs_partial Verif.Astro.Ex.units rfl (core := core) rfl pickle_ok h1 heap_fits heap_closed heap_rank
        (a := 0) (by decide) h2 (order := List.reverse) (fun l => List.reverse_perm l) (f := 6) (by decide)
      exact ⟨t', file', b, L, h1, h2, h3, h4⟩

end Ex

end Verif.Custom.Astropy
