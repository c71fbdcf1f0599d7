/-!
# Python dictionaries as association lists (front entry wins)
-/
namespace Verif
namespace Assoc
variable {κ ν : Type} [DecidableEq κ]

/-- `d.get(k)` -/
def get? : List (κ × ν) → κ → Option ν
  | [], _ => none
  | (k', v) :: l, k => if k' = k then some v else get? l k

/-- `d[k] = v` -/
def put (l : List (κ × ν)) (k : κ) (v : ν) : List (κ × ν) := (k, v) :: l

@[simp] theorem get?_nil (k : κ) : get? ([] : List (κ × ν)) k = none := rfl
@[simp] theorem get?_put_self (l : List (κ × ν)) (k : κ) (v : ν) : get? (put l k v) k = some v := by
  simp [put, get?]
theorem get?_put_ne (l : List (κ × ν)) {k k' : κ} (v : ν) (h : k' ≠ k) :
    get? (put l k' v) k = get? l k := by
  simp [put, get?, h]
theorem get?_put (l : List (κ × ν)) (k k' : κ) (v : ν) :
    get? (put l k' v) k = if k' = k then some v else get? l k := rfl
theorem get?_mem {l : List (κ × ν)} {k : κ} {v : ν} (h : get? l k = some v) : (k, v) ∈ l := by
  induction l with
  | nil => simp at h
  | cons p l ih =>
    obtain ⟨k', v'⟩ := p
    simp only [get?] at h
    split at h
    · next hk => subst hk; simp at h; simp [h]
    · exact List.mem_cons_of_mem _ (ih h)

theorem get?_none_of_mem {l : List (κ × ν)} {p : κ × ν} (h : get? l p.1 = none) (hp : p ∈ l) : False := by
  induction l with
  | nil => simp at hp
  | cons q l ih =>
    simp only [get?] at h
    split at h
    · simp at h
    · next hk =>
      rcases List.mem_cons.1 hp with rfl | hp
      · exact hk rfl
      · exact ih h hp

/-- in a list without repeated keys every entry is the one `get?` finds -/
theorem get?_of_mem {l : List (κ × ν)} {p : κ × ν} (h : l.Pairwise fun e e' => e.1 ≠ e'.1) (hp : p ∈ l) : get? l p.1 = some p.2 := by
  induction h with
  | nil => simp at hp
  | @cons q l h1 _ ih =>
    simp only [get?]
    rcases List.mem_cons.1 hp with rfl | hp
    · simp
    · rw [if_neg (h1 p hp)]; exact ih hp

/-- first hit in a list of dictionaries (`collections.ChainMap.get`) -/
def chain : List (List (κ × ν)) → κ → Option ν
  | [], _ => none
  | m :: ms, k => match get? m k with
    | some v => some v
    | none => chain ms k

end Assoc
end Verif
