/-
Go maps as association lists without duplicate keys.
-/
namespace Verif

/-- A Go `map[κ]ν` (non-nil).  Used for tree.go:21, reg_tree.go:10, ctx.go:49, baseauth.go:29, logger/config/config.go:26, logger/fields.go:11. -/
abbrev GoMap (κ ν : Type) := List (κ × ν)

namespace GoMap
variable {κ ν : Type} [DecidableEq κ]

/-- `v, find := m[k]`.  As in tree.go:95, 137, reg_tree.go:44, ctx.go:231, 259, config.go:64, 95. -/
def get? (m : GoMap κ ν) (k : κ) : Option ν := (m.find? fun e => e.1 = k).map (·.2)

/-- `m[k] = v`.  As in tree.go:68-74, reg_tree.go:32-38, ctx.go:233, 253, logger.go:70. -/
def set (m : GoMap κ ν) (k : κ) (v : ν) : GoMap κ ν := (k, v) :: m.filter fun e => e.1 ≠ k

/-- `delete(m, k)`.  As in logger.go:122. -/
def erase (m : GoMap κ ν) (k : κ) : GoMap κ ν := m.filter fun e => e.1 ≠ k

@[simp] theorem get?_nil (k : κ) : get? ([] : GoMap κ ν) k = none := rfl

theorem find?_filter_ne (m : GoMap κ ν) (k k' : κ) (h : k' ≠ k) :
    (m.filter fun e => e.1 ≠ k).find? (fun e => e.1 = k') = m.find? (fun e => e.1 = k') := by
  induction m with
  | nil => rfl
  | cons e m ih =>
    by_cases h1 : e.1 = k
    · have : e.1 ≠ k' := fun h2 => h (h2 ▸ h1)
      simp_all
    · by_cases h2 : e.1 = k' <;> simp_all

theorem get?_set (m : GoMap κ ν) (k k' : κ) (v : ν) :
    get? (set m k v) k' = if k' = k then some v else get? m k' := by
  unfold get? set
  by_cases h : k' = k
  · subst h; simp
  · rw [List.find?_cons_of_neg (by simpa using fun h' => h h'.symm), find?_filter_ne _ _ _ h]
    simp [h]

@[simp] theorem get?_set_self (m : GoMap κ ν) (k : κ) (v : ν) : get? (set m k v) k = some v := by
  simp [get?_set]

theorem get?_set_ne (m : GoMap κ ν) {k k' : κ} (v : ν) (h : k' ≠ k) :
    get? (set m k v) k' = get? m k' := by simp [get?_set, h]

theorem get?_erase (m : GoMap κ ν) (k k' : κ) :
    get? (erase m k) k' = if k' = k then none else get? m k' := by
  unfold get? erase
  by_cases h : k' = k
  · subst h
    have : (m.filter fun e => e.1 ≠ k').find? (fun e => e.1 = k') = none := by
      simp [List.find?_eq_none]
    simp
  · rw [find?_filter_ne _ _ _ h]; simp [h]

theorem get?_cons (e : κ × ν) (m : GoMap κ ν) (k : κ) :
    get? (e :: m) k = if e.1 = k then some e.2 else get? m k := by
  unfold get?
  by_cases h : e.1 = k <;> simp [h]

end GoMap
end Verif
