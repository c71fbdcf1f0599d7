import Verif.Hickle.LoadSpec
/-!
# Arrays of strings and of objects, masked arrays and sparse matrices

What the containers of these types find in the heap of a running load: nested lists that are copies of the
lists made for the dump give back the shape and the elements.
-/
namespace Verif

variable {P : Nat → Prop} {base : Nat} {H : Heap} {W : Rel} {rk : Addr → Nat} {c : LCtx}

theorem castItems_num {H : Heap} {d : DT} : ∀ {items : List Addr} {vs : List NpVal}, items.mapM (castItem H d) = some vs → ∀ a ∈ items, numDt H a ≠ none := by
  intro items
  induction items with
  | nil => intro vs _; simp
  | cons a items ih =>
    intro vs h
    simp only [List.mapM_cons, Option.bind_eq_bind, Option.bind_eq_some_iff, Option.pure_def, Option.some.injEq] at h
    obtain ⟨w, h1, ws, h2, rfl⟩ := h
    intro b hb
    rcases List.mem_cons.1 hb with rfl | hb
    · unfold castItem at h1
      split at h1
      · next o ho =>
        obtain ⟨v, e1, e2⟩ := Option.bind_eq_some_iff.1 h1
        simp [numDt, ho, e1]
      · simp at h1
    · exact ih h2 b hb

theorem mapM_of_all2 {α β : Type} {f : α → Option β} {xs : List α} {ys : List β} (h : All2 (fun x y => f x = some y) xs ys) : xs.mapM f = some ys := by
  induction h with
  | nil => rfl
  | cons h1 _ ih => simp [List.mapM_cons, h1, ih]

theorem commonPrefix_self (l : List Nat) : commonPrefix l l = l := by
  induction l with
  | nil => rfl
  | cons a l ih => simp [commonPrefix, ih]

theorem commonPrefixes_same {sh : List Nat} : ∀ {shs : List (List Nat)}, shs ≠ [] → (∀ s ∈ shs, s = sh) → commonPrefixes shs = sh
  | [], h, _ => absurd rfl h
  | [l], _, h => h l (by simp)
  | l :: m :: ls, _, h => by
    rw [commonPrefixes, commonPrefixes_same (by simp) fun s hs => h s (List.mem_cons_of_mem _ hs), h l (by simp), commonPrefix_self]
    simp

/-- every `n` elements there is one that satisfies `p` -/
def Mixed {α : Type} (p : α → Prop) (n : Nat) (l : List α) : Prop := ∀ i, i * n < l.length → ∃ a ∈ (l.drop (i * n)).take n, p a

theorem Mixed.left {α : Type} {p : α → Prop} {n : Nat} {a b : List α} (hd : n ∣ a.length) (h : Mixed p n (a ++ b)) : Mixed p n a := by
  intro i hi
  obtain ⟨k, hk⟩ := hd
  obtain ⟨x, hx, hp⟩ := h i (by rw [List.length_append]; omega)
  have hlt : i < k := by
    rcases Nat.lt_or_ge i k with h | h
    · exact h
    · have := Nat.mul_le_mul_left n h
      rw [Nat.mul_comm i n] at hi; omega
  have hle := mul_le_of_lt (k := n) hlt
  rw [Nat.mul_comm k n] at hle
  rw [List.drop_append_of_le_length (by omega), List.take_append_of_le_length (by rw [List.length_drop]; omega)] at hx
  exact ⟨x, hx, hp⟩

theorem Mixed.right {α : Type} {p : α → Prop} {n : Nat} {a b : List α} (hd : n ∣ a.length) (h : Mixed p n (a ++ b)) : Mixed p n b := by
  intro i hi
  obtain ⟨k, hk⟩ := hd
  have he : (i + k) * n = a.length + i * n := by rw [Nat.add_mul, Nat.mul_comm k n]; omega
  obtain ⟨x, hx, hp⟩ := h (i + k) (by rw [he, List.length_append]; omega)
  rw [he, List.drop_append, List.drop_eq_nil_of_le (by omega), List.nil_append, show a.length + i * n - a.length = i * n by omega] at hx
  exact ⟨x, hx, hp⟩

theorem Mixed.mem {α : Type} {p : α → Prop} {n m : Nat} (hd : n ∣ m) : ∀ {lss : List (List α)}, (∀ l ∈ lss, l.length = m) → Mixed p n lss.flatten → ∀ l ∈ lss, Mixed p n l := by
  intro lss
  induction lss with
  | nil => simp
  | cons a lss ih =>
    intro hl h l hm
    rw [List.flatten_cons] at h
    have ha : n ∣ a.length := by rw [hl a (by simp)]; exact hd
    rcases List.mem_cons.1 hm with rfl | hm
    · exact h.left ha
    · exact ih (fun l hl' => hl l (by simp [hl'])) (h.right ha) l hm

theorem Nested.length {cl : Cls} : ∀ {sh : List Nat} {ls : List Leaf} {p : Addr}, Nested base H cl sh ls p → ls.length = shSize sh := by
  intro sh
  induction sh with
  | nil => rintro ls p ⟨l, rfl, _⟩; rfl
  | cons n sh ih =>
    rintro ls p ⟨-, rows, lss, -, h2, rfl, h4⟩
    subst h2
    rw [shSize]
    induction h4 with
    | nil => simp
    | cons h1 _ ih2 => simp only [List.flatten_cons, List.length_append, List.length_cons, ih h1, Nat.succ_mul] at ih2 ⊢; omega

/-- the copies of the elements of a nested list -/
def ElemsOf (base : Nat) (H : Heap) (G : Ghost) (xs : List Addr) (ls : List Leaf) : Prop :=
  All2 (fun x l => ∃ q, LeafAt base H l q ∧ G.R x q) xs ls

/-- an element that is not a number -/
def NonNum (base : Nat) (H : Heap) (l : Leaf) : Prop := ∀ q, LeafAt base H l q → numDt H q = none

/-- the elements of a nested list are single elements for numpy, and in every row there is one that is not a number -/
def LeavesOk (env : Env) (base : Nat) (H : Heap) (sh : List Nat) (ls : List Leaf) : Prop :=
  (∀ l ∈ ls, ∀ q, LeafAt base H l q → ∃ o : Obj, H[q]? = some o ∧ o.val.noDims = true ∧ o.lost env = false) ∧ ∀ n, sh.getLast? = some n → Mixed (NonNum base H) n ls

theorem LeavesOk.row {n : Nat} {sh : List Nat} {lss : List (List Leaf)} (h : LeavesOk c.env base H (n :: sh) lss.flatten) (hl : ∀ l ∈ lss, l.length = shSize sh) :
    ∀ l ∈ lss, LeavesOk c.env base H sh l := by
  intro l hm
  refine ⟨fun x hx => h.1 x (List.mem_flatten.2 ⟨l, hm, hx⟩), ?_⟩
  intro k hk
  cases sh with
  | nil => simp at hk
  | cons m sh =>
    exact (h.2 k (by rw [List.getLast?_cons_cons]; exact hk)).mem (getLast_dvd_shSize hk) hl l hm

theorem noDims_copy {G : Ghost} {v' v : Val} (h : ValCopy H G.R G.N G.Q v' v) (hv : v.noDims = true) : v'.noDims = true := by
  cases h with
  | atom => exact hv
  | seq => simp [Val.noDims] at hv
  | set => rfl
  | dict => rfl
  | oarr => simp [Val.noDims] at hv
  | sparse => simp [Val.noDims] at hv

theorem objShape_noDims {L : Heap} {x : Addr} {o : Obj} (ho : L[x]? = some o) (hv : o.val.noDims = true) {f : Nat} (hf : x < f) : objShape L f x = some [] := by
  obtain ⟨cl, v⟩ := o
  cases f with
  | zero => omega
  | succ f =>
    cases v <;> first | (simp [Val.noDims] at hv; done) | simp [objShape, ho]

/-- if one of the items is not a number, the items are copied -/
theorem LInv.items {G : Ghost} {s : LState} (h : LInv P H W c G s) {xs as : List Addr} (hc : ItemsCopy H G.R G.N xs as)
    (hn : ∃ a ∈ as, numDt H a = none) : All2 G.R xs as := by
  rcases hc with ⟨hc, -⟩ | ⟨d, -, hc⟩
  · exact hc
  · exfalso
    obtain ⟨a, ha, hn⟩ := hn
    induction hc with
    | nil => simp at ha
    | cons h1 _ ih =>
      rcases List.mem_cons.1 ha with rfl | ha
      · obtain ⟨o, o', e1, e2, v, w, e3, _⟩ := h.num _ _ _ h1
        simp [numDt, e1, e3] at hn
      · exact ih ha

theorem LInv.seq {G : Ghost} {s : LState} (h : LInv P H W c G s) {x p : Addr} (hR : G.R x p) {cl : Cls} {rows : List Addr} (hp : H[p]? = some ⟨cl, .seq rows⟩)
    (hl : Obj.lost c.env ⟨cl, .seq rows⟩ = false) : ∃ xs, s.heap[x]? = some ⟨cl, .seq xs⟩ ∧ ItemsCopy H G.R G.N xs rows := by
  obtain ⟨⟨cl', v'⟩, e2, e3, e4⟩ := h.live hR hp hl
  simp only at e3 e4; subst e3
  cases e4 with
  | atom h1 => simp [Val.isAtom] at h1
  | seq h1 => exact ⟨_, e2, h1⟩

/-- What numpy makes of the copies of nested lists: shape and elements of the originals. -/
theorem LInv.nested {G : Ghost} {s : LState} (h : LInv P H W c G s) {cl : Cls} (hcl : ∀ v, Obj.lost c.env ⟨cl, v⟩ = false) : ∀ {sh : List Nat}, (∀ n ∈ sh, n ≠ 0) → ∀ {ls : List Leaf} {p x : Addr},
    Nested base H cl sh ls p → G.R x p → LeavesOk c.env base H sh ls →
    ∃ xs, flattenTo s.heap sh x = some xs ∧ ElemsOf base H G xs ls ∧ ∀ f, x < f → objShape s.heap f x = some sh := by
  intro sh
  induction sh with
  | nil =>
    rintro _ ls p x ⟨l, rfl, hl⟩ hR hok
    refine ⟨[x], rfl, .cons ⟨p, hl, hR⟩ .nil, ?_⟩
    obtain ⟨o, ho, hd, hlv⟩ := hok.1 l (by simp) p hl
    obtain ⟨o', e2, _, e4⟩ := h.live hR ho hlv
    exact fun f hf => objShape_noDims e2 (noDims_copy e4 hd) hf
  | cons n sh ih =>
    rintro hsh ls p x ⟨_, rows, lss, h1, h2, rfl, h4⟩ hR hok
    obtain ⟨xs, hx, hic⟩ := h.seq hR h1 (hcl _)
    have hn : n ≠ 0 := hsh n (by simp)
    have hll : ∀ l ∈ lss, l.length = shSize sh := by
      clear hok hic h1 h2
      induction h4 with
      | nil => simp
      | cons q1 _ ih => intro l hl; exact (List.mem_cons.1 hl).elim (fun e => e ▸ q1.length) (ih l)
    have hrow := hok.row hll
    have hnum : ∃ a ∈ rows, numDt H a = none := by
      cases sh with
      | nil =>
        obtain ⟨l, hl, hnn⟩ := hok.2 n rfl 0 (by
          have := Nested.length (sh := [n]) (cl := cl) (p := p) (base := base) (H := H) ⟨‹_›, rows, lss, h1, h2, rfl, h4⟩
          simp only [shSize] at this; rw [this]; omega)
        have hl' := List.mem_of_mem_take hl
        simp only [Nat.zero_mul, List.drop_zero] at hl'
        clear hok hrow hll hic h2 h1 hl
        induction h4 with
        | nil => simp at hl'
        | @cons r l' _ _ q1 _ ih =>
          obtain ⟨l0, rfl, q⟩ := q1
          rw [List.flatten_cons, List.singleton_append] at hl'
          rcases List.mem_cons.1 hl' with rfl | hl'
          · exact ⟨r, by simp, hnn _ q⟩
          · obtain ⟨a, ha, hq⟩ := ih hl'
            exact ⟨a, by simp [ha], hq⟩
      | cons m sh =>
        cases h4 with
        | nil => simp at h2; omega
        | @cons r _ _ _ q1 _ =>
          obtain ⟨_, rows', _, q2, _⟩ := q1
          exact ⟨r, by simp, by simp [numDt, q2, exactNum]⟩
    have hall := h.items hic hnum
    have hbelow := h.below x _ hx
    simp only [Val.children] at hbelow
    have key : ∃ yss : List (List Addr), All2 (fun y ys => flattenTo s.heap sh y = some ys) xs yss ∧ ElemsOf base H G yss.flatten lss.flatten ∧
        ∀ y ∈ xs, ∀ f, y < f → objShape s.heap f y = some sh := by
      clear hic hbelow hnum h1 h2 hok hll hx
      induction hall generalizing lss with
      | nil => cases h4; exact ⟨[], .nil, .nil, by simp⟩
      | cons q1 _ ih2 =>
        cases h4 with
        | cons q2 q3 =>
          obtain ⟨ys, a1, a2, a3⟩ := ih (fun n hn => hsh n (by simp [hn])) q2 q1 (hrow _ (by simp))
          obtain ⟨yss, b1, b2, b3⟩ := ih2 _ q3 fun l hl => hrow l (by simp [hl])
          refine ⟨ys :: yss, .cons a1 b1, by rw [List.flatten_cons, List.flatten_cons]; exact All2.append a2 b2, ?_⟩
          intro y hy
          rcases List.mem_cons.1 hy with rfl | hy
          · exact a3
          · exact b3 y hy
    obtain ⟨yss, k1, k2, k3⟩ := key
    refine ⟨yss.flatten, ?_, k2, ?_⟩
    · simp only [flattenTo, hx, mapM_of_all2 k1, Option.map_some]
    · intro f hf
      cases f with
      | zero => omega
      | succ f =>
        have hm : xs.mapM (objShape s.heap f) = some (xs.map fun _ => sh) := by
          apply mapM_of_all2
          have : ∀ y ∈ xs, objShape s.heap f y = some sh := fun y hy => k3 y hy f (by have := hbelow y hy; omega)
          clear k1 k3 hx hic hall hbelow
          induction xs with
          | nil => exact .nil
          | cons y xs ih => exact .cons (this y (by simp)) (ih fun z hz => this z (by simp [hz]))
        have hlen : xs.length = n := by rw [hall.length, h2]
        simp only [objShape, hx, hm, hlen]
        rw [commonPrefixes_same (sh := sh)]
        · intro he; rw [List.map_eq_nil_iff] at he; subst he; simp at hlen; omega
        · intro t ht; simp at ht; exact ht.2.symm

/-- the array numpy makes of the copies of the rows -/
theorem LInv.arrayOf {G : Ghost} {s : LState} (h : LInv P H W c G s) {cl : Cls} (hcl : ∀ v, Obj.lost c.env ⟨cl, v⟩ = false) {n : Nat} {sh : List Nat} (hn : n ≠ 0) (hsh : ∀ k ∈ sh, k ≠ 0) {xs rows : List Addr}
    {lss : List (List Leaf)} (hl : rows.length = n) (hR : All2 G.R xs rows) (hN : All2 (fun r l => Nested base H cl sh l r) rows lss)
    (hok : ∀ l ∈ lss, LeavesOk c.env base H sh l) :
    ∃ ys, arrayOf s.heap xs none = some (n :: sh, ys) ∧ ElemsOf base H G ys lss.flatten := by
  have key : ∃ yss : List (List Addr), All2 (fun y ys => flattenTo s.heap sh y = some ys) xs yss ∧ ElemsOf base H G yss.flatten lss.flatten ∧
      ∀ y ∈ xs, objShape s.heap s.heap.length y = some sh := by
    clear hl
    induction hR generalizing lss with
    | nil => cases hN; exact ⟨[], .nil, .nil, by simp⟩
    | cons q1 _ ih2 =>
      cases hN with
      | cons q2 q3 =>
        obtain ⟨ys, a1, a2, a3⟩ := h.nested hcl hsh q2 q1 (hok _ (by simp))
        obtain ⟨yss, b1, b2, b3⟩ := ih2 q3 fun l hl => hok l (by simp [hl])
        refine ⟨ys :: yss, .cons a1 b1, by rw [List.flatten_cons, List.flatten_cons]; exact All2.append a2 b2, ?_⟩
        intro y hy
        rcases List.mem_cons.1 hy with rfl | hy
        · exact a3 _ (h.lt _ _ (.inl q1))
        · exact b3 y hy
  obtain ⟨yss, k1, k2, k3⟩ := key
  refine ⟨yss.flatten, ?_, k2⟩
  have hm : xs.mapM (objShape s.heap s.heap.length) = some (xs.map fun _ => sh) := by
    apply mapM_of_all2
    clear k1 hR
    induction xs with
    | nil => exact .nil
    | cons y xs ih => exact .cons (k3 y (by simp)) (ih fun z hz => k3 z (by simp [hz]))
  have hlen : xs.length = n := by rw [hR.length, hl]
  have hos : objShapes s.heap xs = some (n :: sh) := by
    simp only [objShapes, hm, hlen]
    rw [commonPrefixes_same (sh := sh)]
    · intro he; rw [List.map_eq_nil_iff] at he; subst he; simp at hlen; omega
    · intro t ht; simp at ht; exact ht.2.symm
  simp only [Verif.arrayOf, hos, mapM_of_all2 k1, Option.map_some]

theorem fixStr_of_width {w : Nat} {s : PyStr} (h : widthOk w s = true) : fixStr w s = s := by
  simp only [widthOk, Bool.and_eq_true, decide_eq_true_eq] at h
  unfold fixStr
  rw [List.take_of_length_le h.1]
  cases hr : s.reverse with
  | nil => rw [List.reverse_eq_nil_iff.1 hr]; rfl
  | cons c r =>
    have hc : s.getLast? = some c := by rw [List.getLast?_eq_head?_reverse, hr]; rfl
    rw [List.dropWhile_cons, if_neg, ← hr, List.reverse_reverse]
    simp only [decide_eq_true_eq]
    rintro rfl
    exact h.2 hc

/-- the strings of a copied array -/
theorem stringsOf_ok {L : Heap} {w : Nat} {ys : List Addr} {ss : List PyStr} (h : All2 (fun y t => L[y]? = some ⟨.str, .str t⟩) ys ss) (hw : ∀ t ∈ ss, fixStr w t = t) :
    stringsOf L w ys = .ok ss := by
  induction h with
  | nil => rfl
  | @cons y t ys ss h1 _ ih =>
    simp only [stringsOf, h1, ih fun t ht => hw t (by simp [ht]), hw t (by simp)]
    rfl

theorem ElemsOf.strs {G : Ghost} {s : LState} (h : LInv P H W c G s) {ys : List Addr} {ss : List PyStr}
    (he : ElemsOf base H G ys (ss.map fun t => .obj ⟨.str, .str t⟩)) : All2 (fun y t => s.heap[y]? = some ⟨.str, .str t⟩) ys ss := by
  generalize hls : (ss.map fun t => Leaf.obj ⟨.str, .str t⟩) = ls at he
  induction he generalizing ss with
  | nil => simp at hls; subst hls; exact .nil
  | @cons y l ys ls h1 _ ih =>
    cases ss with
    | nil => simp at hls
    | cons t ss =>
      simp only [List.map_cons, List.cons.injEq] at hls
      obtain ⟨rfl, hls⟩ := hls
      refine .cons ?_ (ih hls)
      obtain ⟨q, ⟨_, hq⟩, hR⟩ := h1
      obtain ⟨⟨cl', v'⟩, e2, e3, e4⟩ := h.live hR hq rfl
      simp only at e3 e4; subst e3
      cases e4; exact e2

theorem ElemsOf.addrs {G : Ghost} {ys as : List Addr} (he : ElemsOf base H G ys (as.map .addr)) : All2 G.R ys as := by
  generalize hls : as.map Leaf.addr = ls at he
  induction he generalizing as with
  | nil => simp at hls; subst hls; exact .nil
  | @cons y l ys ls h1 _ ih =>
    cases as with
    | nil => simp at hls
    | cons a as =>
      simp only [List.map_cons, List.cons.injEq] at hls
      obtain ⟨rfl, hls⟩ := hls
      obtain ⟨q, rfl, hR⟩ := h1
      exact .cons hR (ih hls)

/-! ### kids of a node with rows -/

theorem nestSubs_get {sh : List Nat} {k : Nat} : ∀ {i j : Nat} {ls : List Leaf}, j < k →
    (nestSubs sh i k ls)[j]? = some (.ok ⟨dataName (i + j), .nest .list sh ((ls.drop (j * shSize sh)).take (shSize sh)), [("item_index", .int (i + j : Nat))]⟩) := by
  induction k with
  | zero => intro i j ls h; omega
  | succ k ih =>
    intro i j ls h
    cases j with
    | zero => simp [nestSubs]
    | succ j =>
      simp only [nestSubs, List.getElem?_cons_succ]
      rw [ih (by omega), List.drop_drop, Nat.succ_mul, Nat.add_comm (shSize sh), show i + 1 + j = i + (j + 1) by omega]

theorem nestSubs_length {sh : List Nat} {k : Nat} : ∀ {i : Nat} {ls : List Leaf}, (nestSubs sh i k ls).length = k := by
  induction k with
  | zero => intro i ls; rfl
  | succ k ih => intro i ls; simp [nestSubs, ih]

/-- the elements of the rows -/
def rowsOf (sz : Nat) : Nat → List Leaf → List (List Leaf)
  | 0, _ => []
  | k + 1, ls => ls.take sz :: rowsOf sz k (ls.drop sz)

theorem rowsOf_flatten {sz k : Nat} : ∀ {ls : List Leaf}, ls.length = k * sz → (rowsOf sz k ls).flatten = ls := by
  induction k with
  | zero => intro ls h; simp at h; subst h; rfl
  | succ k ih =>
    intro ls h
    rw [Nat.succ_mul] at h
    simp only [rowsOf, List.flatten_cons]
    rw [ih (by rw [List.length_drop]; omega), List.take_append_drop]

theorem rowsOf_get {sz k : Nat} : ∀ {j : Nat} {ls : List Leaf}, j < k → (rowsOf sz k ls)[j]? = some ((ls.drop (j * sz)).take sz) := by
  induction k with
  | zero => intro j ls h; omega
  | succ k ih =>
    intro j ls h
    cases j with
    | zero => simp [rowsOf]
    | succ j => simp only [rowsOf, List.getElem?_cons_succ]; rw [ih (by omega), List.drop_drop, Nat.succ_mul, Nat.add_comm sz]

theorem rowsOf_length {sz k : Nat} : ∀ {ls : List Leaf}, (rowsOf sz k ls).length = k := by
  induction k with
  | zero => intro ls; rfl
  | succ k ih => intro ls; simp [rowsOf, ih]

theorem nestKids_of {sh : List Nat} {n : Nat} {ls : List Leaf} {zs : List Kid} (h : zs.map (fun k => Except.ok k.sub) = nestSubs sh 0 n ls)
    (hs : ∀ k ∈ zs, SubAt base H k.sub.obj k.addr) :
    SeqKids (zs.map Kid.addr) zs ∧ All2 (fun r l => Nested base H .list sh l r) (zs.map Kid.addr) (rowsOf (shSize sh) n ls) := by
  have hl : zs.length = n := by
    have := congrArg List.length h
    rwa [List.length_map, nestSubs_length] at this
  have key : ∀ (i : Nat) k, zs[i]? = some k → i < n ∧ k.sub = ⟨dataName i, .nest .list sh ((ls.drop (i * shSize sh)).take (shSize sh)), [("item_index", .int (i : Nat))]⟩ := by
    intro i k hk
    have hlt : i < n := by have := lt_of_getElem? hk; omega
    have h1 : (nestSubs sh 0 n ls)[i]? = some (.ok k.sub) := by rw [← h, List.getElem?_map, hk]; rfl
    rw [nestSubs_get hlt] at h1
    simp only [Option.some.injEq, Except.ok.injEq, Nat.zero_add] at h1
    exact ⟨hlt, h1.symm⟩
  refine ⟨seqKids_mk (by simp) ?_, All2.of_getElem _ _ (by rw [List.length_map, rowsOf_length, hl]) ?_⟩
  · intro i k hk
    rw [(key i k hk).2, List.getElem?_map, hk]
    exact ⟨rfl, rfl, rfl⟩
  · intro i r l hr hrow
    rw [List.getElem?_map] at hr
    simp only [Option.map_eq_some_iff] at hr
    obtain ⟨k, hk, rfl⟩ := hr
    obtain ⟨hlt, hsub⟩ := key i k hk
    rw [rowsOf_get hlt] at hrow
    simp at hrow; subst hrow
    have := hs k (List.mem_of_getElem? hk)
    rw [hsub] at this
    exact this

end Verif
