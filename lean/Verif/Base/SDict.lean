import Mathlib.Order.Defs.LinearOrder
import Mathlib.Data.List.Basic
import Mathlib.Data.String.Basic

/-!
# Sorted dictionaries

`sortedcontainers.SortedDict` (used all over `/repo/neuro_shooting`) is modelled as the list of its
items in iteration order.  Iteration order is key order, so the representation invariant is that
the keys are strictly increasing (`Sorted`).  `set` is item assignment, `get?` is lookup.
-/

namespace Verif

variable {K : Type _} {V W : Type _}

/-- A sorted dictionary: its items in iteration (= key) order. -/
abbrev SDict (K : Type _) (V : Type _) := List (K × V)

namespace SDict

/-- Keys in iteration order. -/
def keys (d : SDict K V) : List K := d.map Prod.fst

/-- Values in iteration order. -/
def values (d : SDict K V) : List V := d.map Prod.snd

/-- Lookup `d[k]`; `none` is Python's `KeyError`. -/
def get? [DecidableEq K] : SDict K V → K → Option V
  | [], _ => none
  | (k', v') :: r, k => if k' = k then some v' else get? r k

/-- Membership `k in d`. -/
def has [DecidableEq K] (d : SDict K V) (k : K) : Bool := (d.get? k).isSome

/-- Item assignment `d[k] = v` for a sorted dictionary. -/
def set [LinearOrder K] : SDict K V → K → V → SDict K V
  | [], k, v => [(k, v)]
  | (k', v') :: r, k, v =>
    if k < k' then (k, v) :: (k', v') :: r
    else if k' = k then (k, v) :: r
    else (k', v') :: set r k v

/-- Representation invariant of `SortedDict`: strictly increasing keys. -/
def Sorted [LinearOrder K] (d : SDict K V) : Prop := d.keys.Pairwise (· < ·)

instance [LinearOrder K] (d : SDict K V) : Decidable (Sorted d) := by
  unfold Sorted; infer_instance

@[simp] theorem keys_nil : keys ([] : SDict K V) = [] := rfl
@[simp] theorem keys_cons (p : K × V) (d : SDict K V) : keys (p :: d) = p.1 :: keys d := rfl
@[simp] theorem keys_append (a b : SDict K V) : keys (a ++ b) = keys a ++ keys b := by
  simp [keys]

theorem mem_keys_of_mem {d : SDict K V} {p : K × V} (h : p ∈ d) : p.1 ∈ keys d :=
  List.mem_map_of_mem h

/-- Apply a function to all values, keeping the keys. -/
def mapVals (f : V → W) (d : SDict K V) : SDict K W := d.map (fun p => (p.1, f p.2))

@[simp] theorem keys_mapVals (f : V → W) (d : SDict K V) : keys (mapVals f d) = keys d := by
  simp [mapVals, keys, Function.comp_def]

section lemmas
variable [LinearOrder K]

@[simp] theorem sorted_nil : Sorted ([] : SDict K V) := by simp [Sorted]

theorem sorted_cons {p : K × V} {d : SDict K V} :
    Sorted (p :: d) ↔ (∀ k ∈ keys d, p.1 < k) ∧ Sorted d := by
  simp [Sorted]

theorem Sorted.tail {p : K × V} {d : SDict K V} (h : Sorted (p :: d)) : Sorted d :=
  (sorted_cons.1 h).2

theorem Sorted.nodup {d : SDict K V} (h : Sorted d) : d.keys.Nodup :=
  h.imp (fun h => ne_of_lt h)

theorem sorted_append {a b : SDict K V} :
    Sorted (a ++ b) ↔ Sorted a ∧ Sorted b ∧ ∀ x ∈ keys a, ∀ y ∈ keys b, x < y := by
  simp [Sorted, List.pairwise_append]

@[simp] theorem get?_nil (k : K) : get? ([] : SDict K V) k = none := rfl

theorem get?_cons (p : K × V) (d : SDict K V) (k : K) :
    get? (p :: d) k = if p.1 = k then some p.2 else get? d k := by
  cases p; rfl

theorem get?_eq_none_iff {d : SDict K V} {k : K} : get? d k = none ↔ k ∉ keys d := by
  induction d with
  | nil => simp
  | cons p d ih =>
    rw [get?_cons]
    by_cases h : p.1 = k
    · simp [h]
    · simp [h, ih, Ne.symm h]

theorem mem_of_get?_eq_some {d : SDict K V} {k : K} {v : V} (h : get? d k = some v) :
    (k, v) ∈ d := by
  induction d with
  | nil => simp at h
  | cons p d ih =>
    rw [get?_cons] at h
    split at h
    · next hk => cases h; subst hk; simp
    · exact List.mem_cons_of_mem _ (ih h)

theorem get?_eq_some_of_mem {d : SDict K V} (hd : d.keys.Nodup) {k : K} {v : V}
    (h : (k, v) ∈ d) : get? d k = some v := by
  induction d with
  | nil => simp at h
  | cons p d ih =>
    rw [get?_cons]
    simp only [keys_cons, List.nodup_cons] at hd
    rcases List.mem_cons.1 h with rfl | h
    · simp
    · have : p.1 ≠ k := by
        intro e; exact hd.1 (e ▸ mem_keys_of_mem h)
      simp [this, ih hd.2 h]

theorem get?_eq_some_iff {d : SDict K V} (hd : Sorted d) {k : K} {v : V} :
    get? d k = some v ↔ (k, v) ∈ d :=
  ⟨mem_of_get?_eq_some, get?_eq_some_of_mem hd.nodup⟩

theorem has_iff {d : SDict K V} {k : K} : has d k = true ↔ k ∈ keys d := by
  unfold has
  rcases h : get? d k with _ | v
  · simp [get?_eq_none_iff.1 h]
  · simp only [Option.isSome_some, true_iff]
    exact mem_keys_of_mem (mem_of_get?_eq_some h)

theorem has_eq_false_iff {d : SDict K V} {k : K} : has d k = false ↔ k ∉ keys d := by
  rw [← has_iff]; simp

/-- Reading after writing. -/
theorem get?_set (d : SDict K V) (hd : Sorted d) (k : K) (v : V) (k' : K) :
    get? (set d k v) k' = if k = k' then some v else get? d k' := by
  induction d with
  | nil => simp [set, get?_cons]
  | cons p d ih =>
    obtain ⟨kp, vp⟩ := p
    simp only [set]
    rw [sorted_cons] at hd
    split
    · next h => simp only [get?_cons]
    · split
      · next h1 h2 =>
        subst h2
        simp only [get?_cons]; split <;> rfl
      · next h1 h2 =>
        simp only [get?_cons, ih hd.2]
        by_cases hk : k = k'
        · subst hk; simp [h2]
        · simp [hk]

theorem mem_keys_set {d : SDict K V} {k x : K} {v : V} :
    x ∈ keys (set d k v) ↔ x = k ∨ x ∈ keys d := by
  induction d with
  | nil => simp [set]
  | cons p d ih =>
    obtain ⟨kp, vp⟩ := p
    simp only [set]
    split
    · simp
    · split
      · next h => subst h; simp
      · simp only [keys_cons, List.mem_cons, ih]; tauto

theorem Sorted.set {d : SDict K V} (hd : Sorted d) (k : K) (v : V) : Sorted (set d k v) := by
  induction d with
  | nil => simp [SDict.set, sorted_cons]
  | cons p d ih =>
    obtain ⟨kp, vp⟩ := p
    simp only [SDict.set]
    have hd' := sorted_cons.1 hd
    split
    · next h =>
      rw [sorted_cons]
      refine ⟨?_, hd⟩
      intro x hx
      simp only [keys_cons, List.mem_cons] at hx
      rcases hx with rfl | hx
      · exact h
      · exact lt_trans h (hd'.1 x hx)
    · split
      · next h => subst h; rw [sorted_cons]; exact hd'
      · next h1 h2 =>
        rw [sorted_cons]
        refine ⟨?_, ih hd'.2⟩
        intro x hx
        rcases mem_keys_set.1 hx with rfl | hx
        · exact lt_of_le_of_ne (not_lt.1 h1) h2
        · exact hd'.1 x hx

/-- Assigning a key larger than all present ones appends it. -/
theorem set_of_forall_lt {d : SDict K V} {k : K} {v : V} (h : ∀ x ∈ keys d, x < k) :
    set d k v = d ++ [(k, v)] := by
  induction d with
  | nil => rfl
  | cons p d ih =>
    obtain ⟨kp, vp⟩ := p
    simp only [keys_cons, List.mem_cons, forall_eq_or_imp] at h
    simp only [set, not_lt_of_gt h.1, ne_of_lt h.1, if_false, ih h.2, List.cons_append]

/-- Assigning an existing key keeps the keys. -/
theorem keys_set_of_mem {d : SDict K V} (hd : Sorted d) {k : K} {v : V} (h : k ∈ keys d) :
    keys (set d k v) = keys d := by
  induction d with
  | nil => simp at h
  | cons p d ih =>
    obtain ⟨kp, vp⟩ := p
    have hd' := sorted_cons.1 hd
    simp only [keys_cons, List.mem_cons] at h
    simp only [set]
    rcases h with rfl | h
    · simp
    · have hlt : kp < k := hd'.1 k h
      simp [not_lt_of_gt hlt, ne_of_lt hlt, ih hd'.2 h]

/-- A loop that assigns strictly increasing keys appends all of them. -/
theorem foldl_set_eq_append {acc l : SDict K V} (h : Sorted (acc ++ l)) :
    l.foldl (fun a p => set a p.1 p.2) acc = acc ++ l := by
  induction l generalizing acc with
  | nil => simp
  | cons p l ih =>
    rw [sorted_append] at h
    obtain ⟨ha, hl, hal⟩ := h
    rw [List.foldl_cons, set_of_forall_lt (fun x hx => hal x hx p.1 (by simp))]
    rw [ih]
    · simp
    · rw [List.append_assoc, sorted_append]; exact ⟨ha, hl, hal⟩

theorem foldl_set_eq {l : SDict K V} (h : Sorted l) :
    l.foldl (fun a p => set a p.1 p.2) [] = l := by
  simpa using foldl_set_eq_append (acc := []) (l := l) (by simpa using h)

/-- Build a sorted dictionary by assigning the items in order (`SortedDict(items)`). -/
def ofItems (l : List (K × V)) : SDict K V := l.foldl (fun a p => set a p.1 p.2) []

theorem foldl_set_sorted {acc : SDict K V} (l : List (K × V)) (h : Sorted acc) :
    Sorted (l.foldl (fun a p => set a p.1 p.2) acc) := by
  induction l generalizing acc with
  | nil => exact h
  | cons p l ih => exact ih (h.set _ _)

theorem ofItems_sorted (l : List (K × V)) : Sorted (ofItems l) :=
  foldl_set_sorted l (by simp)

theorem ofItems_eq_self {l : SDict K V} (h : Sorted l) : ofItems l = l := foldl_set_eq h

theorem Sorted.mapVals {d : SDict K V} (h : Sorted d) (f : V → W) :
    Sorted (SDict.mapVals f d) := by
  unfold Sorted at *; rwa [keys_mapVals]

theorem get?_mapVals (f : V → W) (d : SDict K V) (k : K) :
    get? (mapVals f d) k = (get? d k).map f := by
  induction d with
  | nil => rfl
  | cons p d ih =>
    have e : mapVals f (p :: d) = (p.1, f p.2) :: mapVals f d := rfl
    rw [e, get?_cons, get?_cons, ih]
    split <;> rfl

/-- Two sorted dictionaries with the same lookups are equal. -/
theorem ext_get? {a b : SDict K V} (ha : Sorted a) (hb : Sorted b)
    (h : ∀ k, get? a k = get? b k) : a = b := by
  induction a generalizing b with
  | nil =>
    cases b with
    | nil => rfl
    | cons p b =>
      have := h p.1
      rw [get?_cons] at this; simp at this
  | cons p a ih =>
    cases b with
    | nil => have := h p.1; rw [get?_cons] at this; simp at this
    | cons q b =>
      obtain ⟨kp, vp⟩ := p
      obtain ⟨kq, vq⟩ := q
      have ha' := sorted_cons.1 ha
      have hb' := sorted_cons.1 hb
      have hk : kp = kq := by
        rcases lt_trichotomy kp kq with hlt | heq | hgt
        · have h1 := h kp
          simp only [get?_cons, if_true] at h1
          rw [if_neg (ne_of_gt hlt)] at h1
          have : get? b kp = none :=
            get?_eq_none_iff.2 (fun hm => lt_asymm hlt (hb'.1 _ hm))
          rw [this] at h1; cases h1
        · exact heq
        · have h1 := h kq
          simp only [get?_cons, if_true] at h1
          rw [if_neg (ne_of_gt hgt)] at h1
          have : get? a kq = none :=
            get?_eq_none_iff.2 (fun hm => lt_asymm hgt (ha'.1 _ hm))
          rw [this] at h1; cases h1
      subst hk
      have hv : vp = vq := by
        have h1 := h kp
        simpa [get?_cons] using h1
      subst hv
      congr 1
      apply ih ha'.2 hb'.2
      intro k
      have h1 := h k
      simp only [get?_cons] at h1
      by_cases hk : kp = k
      · subst hk
        rw [get?_eq_none_iff.2 (fun hm => lt_irrefl _ (ha'.1 _ hm)),
          get?_eq_none_iff.2 (fun hm => lt_irrefl _ (hb'.1 _ hm))]
      · simpa [hk] using h1

end lemmas

/-- Prefixing all keys with the same string keeps their order: `p + a < p + b` iff `a < b`. -/
theorem prefix_lt_prefix_iff (p a b : String) : p ++ a < p ++ b ↔ a < b := by
  rw [String.lt_iff_toList_lt, String.lt_iff_toList_lt]
  simp only [String.toList_append]
  generalize p.toList = l
  induction l with
  | nil => simp
  | cons c l ih => simp only [List.cons_append, List.cons_lt_cons_self, ih]

end SDict
end Verif
