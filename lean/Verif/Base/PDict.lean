import Mathlib.Data.List.Basic

/-!
# Plain Python dictionaries

`dict` / `OrderedDict`: key/value pairs in insertion order.  Assigning an existing key keeps its
position, assigning a new key appends it.
-/

namespace Verif

abbrev PDict (K V : Type _) := List (K × V)

namespace PDict

variable {K V : Type _} [DecidableEq K]

/-- `d.keys()` -/
def keys (d : PDict K V) : List K := d.map Prod.fst

/-- `d[k]` / `d.get(k)` -/
def get? : PDict K V → K → Option V
  | [], _ => none
  | (k', v) :: d, k => if k' = k then some v else get? d k

/-- `k in d` -/
def has (d : PDict K V) (k : K) : Bool := (get? d k).isSome

/-- `d[k] = v` -/
def set : PDict K V → K → V → PDict K V
  | [], k, v => [(k, v)]
  | (k', v') :: d, k, v => if k' = k then (k', v) :: d else (k', v') :: set d k v

/-- `d1.update(d2)` -/
def update (d d' : PDict K V) : PDict K V := d'.foldl (fun d p => d.set p.1 p.2) d

@[simp] theorem get?_nil (k : K) : get? ([] : PDict K V) k = none := rfl

theorem get?_cons (p : K × V) (d : PDict K V) (k : K) :
    get? (p :: d) k = if p.1 = k then some p.2 else get? d k := rfl

omit [DecidableEq K] in
@[simp] theorem keys_nil : keys ([] : PDict K V) = [] := rfl
omit [DecidableEq K] in
@[simp] theorem keys_cons (p : K × V) (d : PDict K V) : keys (p :: d) = p.1 :: keys d := rfl
omit [DecidableEq K] in
@[simp] theorem keys_append (d d' : PDict K V) : keys (d ++ d') = keys d ++ keys d' := by
  simp [keys]

theorem get?_eq_none_iff {d : PDict K V} {k : K} : get? d k = none ↔ k ∉ keys d := by
  induction d with
  | nil => simp
  | cons p d ih =>
    rw [get?_cons]
    by_cases h : p.1 = k
    · simp [h]
    · simp [h, ih, Ne.symm h]

theorem mem_of_get?_eq_some {d : PDict K V} {k : K} {v : V} (h : get? d k = some v) : (k, v) ∈ d := by
  induction d with
  | nil => cases h
  | cons p d ih =>
    rw [get?_cons] at h
    by_cases hk : p.1 = k
    · simp only [hk, if_true, Option.some.injEq] at h
      subst h; subst hk; simp
    · rw [if_neg hk] at h
      exact List.mem_cons_of_mem _ (ih h)

theorem get?_eq_some_of_mem {d : PDict K V} (hd : (keys d).Nodup) {k : K} {v : V} (h : (k, v) ∈ d) :
    get? d k = some v := by
  induction d with
  | nil => cases h
  | cons p d ih =>
    simp only [keys_cons, List.nodup_cons] at hd
    rw [get?_cons]
    simp only [List.mem_cons] at h
    rcases h with rfl | h
    · simp
    · have : p.1 ≠ k := by
        rintro rfl
        exact hd.1 (List.mem_map.2 ⟨_, h, rfl⟩)
      rw [if_neg this]
      exact ih hd.2 h

theorem get?_set (d : PDict K V) (k : K) (v : V) (k' : K) :
    get? (set d k v) k' = if k = k' then some v else get? d k' := by
  induction d with
  | nil => rw [set, get?_cons]
  | cons p d ih =>
    simp only [set]
    by_cases h : p.1 = k
    · simp only [h, if_true]
      rw [get?_cons, get?_cons, h]
      by_cases hk : k = k' <;> simp [hk]
    · simp only [h, if_false]
      rw [get?_cons, get?_cons, ih]
      by_cases hp : p.1 = k'
      · have : k ≠ k' := fun e => h (hp.trans e.symm)
        simp [hp, this]
      · simp [hp]

theorem keys_set (d : PDict K V) (k : K) (v : V) :
    keys (set d k v) = if k ∈ keys d then keys d else keys d ++ [k] := by
  induction d with
  | nil => simp [set]
  | cons p d ih =>
    simp only [set]
    by_cases h : p.1 = k
    · simp [h]
    · simp only [h, if_false, keys_cons, ih, List.mem_cons, Ne.symm h, false_or]
      split <;> simp

theorem nodup_set {d : PDict K V} (hd : (keys d).Nodup) (k : K) (v : V) : (keys (set d k v)).Nodup := by
  rw [keys_set]
  split
  · exact hd
  · next h =>
    rw [List.nodup_append]
    refine ⟨hd, by simp, ?_⟩
    intro a ha b hb
    simp only [List.mem_singleton] at hb
    subst hb
    exact fun e => h (e ▸ ha)

theorem set_of_not_mem {d : PDict K V} {k : K} (h : k ∉ keys d) (v : V) : set d k v = d ++ [(k, v)] := by
  induction d with
  | nil => rfl
  | cons p d ih =>
    simp only [keys_cons, List.mem_cons, not_or] at h
    simp [set, Ne.symm h.1, ih h.2]

theorem update_nil (d : PDict K V) : update d [] = d := rfl

theorem update_cons (d : PDict K V) (p : K × V) (d' : PDict K V) :
    update d (p :: d') = update (d.set p.1 p.2) d' := rfl

theorem get?_update (d d' : PDict K V) (hd' : (keys d').Nodup) (k : K) :
    get? (update d d') k = (get? d' k).or (get? d k) := by
  induction d' generalizing d with
  | nil => simp [update]
  | cons p d' ih =>
    simp only [keys_cons, List.nodup_cons] at hd'
    rw [update_cons, ih _ hd'.2, get?_set, get?_cons]
    by_cases h : p.1 = k
    · subst h
      simp [get?_eq_none_iff.2 hd'.1]
    · simp [h]

theorem nodup_update {d : PDict K V} (hd : (keys d).Nodup) (d' : PDict K V) :
    (keys (update d d')).Nodup := by
  induction d' generalizing d with
  | nil => exact hd
  | cons p d' ih => rw [update_cons]; exact ih (nodup_set hd _ _)

end PDict
end Verif
