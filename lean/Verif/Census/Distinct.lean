import Verif.Census.Good

/-!
# The names of the parameters are different
-/

namespace Verif.Census
open Verif Block ResNet

theorem dot_unique {a b c d : List Char} (ha : '.' ∉ a) (hc : '.' ∉ c) (h : a ++ '.' :: b = c ++ '.' :: d) : a = c ∧ b = d := by
  induction a generalizing c with
  | nil =>
    cases c with
    | nil => exact ⟨rfl, (List.cons.inj h).2⟩
    | cons x c =>
      have := (List.cons.inj h).1
      exact absurd (by rw [this]; exact List.mem_cons_self) hc
  | cons y a ih =>
    cases c with
    | nil =>
      have := (List.cons.inj h).1
      exact absurd (by rw [this]; exact List.mem_cons_self) ha
    | cons x c =>
      obtain ⟨h1, h2⟩ := List.cons.inj h
      obtain ⟨h3, h4⟩ := ih (fun hm => ha (List.mem_cons_of_mem _ hm)) (fun hm => hc (List.mem_cons_of_mem _ hm)) h2
      exact ⟨by rw [h1, h3], h4⟩

theorem dotted_inj {a b c d : String} (ha : '.' ∉ a.toList) (hc : '.' ∉ c.toList) (h : a ++ "." ++ b = c ++ "." ++ d) : a = c ∧ b = d := by
  have h' := congrArg String.toList h
  simp only [String.toList_append] at h'
  rw [List.append_assoc, List.append_assoc] at h'
  obtain ⟨h1, h2⟩ := dot_unique ha hc h'
  exact ⟨String.toList_inj.1 h1, String.toList_inj.1 h2⟩

theorem digits_no_dot (n : Nat) : '.' ∉ (toString n : String).toList := by
  show '.' ∉ (showNat n).toList
  rw [toList_showNat]
  intro h
  have := Nat.isDigit_of_mem_toDigits (by decide) (by decide) h
  revert this
  decide

theorem blockOf_no_dot (i : Nat) : '.' ∉ (blockOf i).toList := by
  unfold blockOf
  simp only [String.toList_append, List.mem_append, not_or]
  exact ⟨⟨⟨⟨by decide +kernel, by decide +kernel⟩, digits_no_dot i⟩, by decide +kernel⟩, by decide +kernel⟩

theorem blockOf_inj {i j : Nat} (h : blockOf i = blockOf j) : i = j := (blockName_injective (b := 0) (c := 0) h).1

/-- The names inside the first block of a layer. -/
def suffixes (keys : List String) (enlarged : Bool) : List String :=
  keys ++ keys.map ("p_" ++ ·) ++ if enlarged then keys.map ("pt_enlarge_" ++ ·) ++ keys.map (fun k => "pt_enlarge_" ++ ("p_" ++ k)) else []

theorem suffixes_nodup {keys : List String} (hk : Names keys) (e : Bool) : (suffixes keys e).Nodup := by
  have := hk.distinct
  unfold suffixes
  cases e with
  | true => simpa [Function.comp_def, List.append_assoc] using this
  | false =>
    simp only [Bool.false_eq_true, if_false, List.append_nil]
    exact (List.nodup_append.1 this).1

theorem own_names (keys : List String) (b : String) (s : Nat) : (own keys b s).map Prod.fst = (keys ++ keys.map ("p_" ++ ·)).map fun k => b ++ "." ++ k := by
  unfold own
  rw [List.map_append, List.map_append, List.map_map, List.map_map, List.map_map]
  congr 1
  apply List.map_congr_left
  intro k _
  dsimp only [Function.comp]
  rw [String.append_assoc]

theorem margin_names (keys : List String) (b : String) (s : Nat) :
    (margin keys b s).map Prod.fst = (keys.map ("pt_enlarge_" ++ ·) ++ keys.map (fun k => "pt_enlarge_" ++ ("p_" ++ k))).map fun k => b ++ "." ++ k := by
  unfold margin
  rw [List.map_append, List.map_append, List.map_map, List.map_map, List.map_map, List.map_map]
  congr 1
  all_goals
    apply List.map_congr_left
    intro k _
    dsimp only [Function.comp]
    simp only [String.append_assoc]

theorem later_names {keys : List String} (hk : Names keys) (n a : Nat) (ls : List Layer) (i : Nat) (p : Layer) :
    ((later keys n a i p ls).map Prod.fst).Nodup ∧ ∀ x ∈ (later keys n a i p ls).map Prod.fst, ∃ j s, i ≤ j ∧ x = blockOf j ++ "." ++ s := by
  induction ls generalizing i p with
  | nil => exact ⟨by simp [later], by simp [later]⟩
  | cons l ls ih =>
    obtain ⟨h1, h2⟩ := ih (i + 1) l
    have hone : ∃ e, (own keys (blockOf i) (n * (l.channels - p.channels) * l.height * l.width) ++
        (if p.height / a = l.height ∧ p.width / a = l.width then []
          else margin keys (blockOf i) (n * p.channels * (l.height * l.width - p.height / a * (p.width / a))))).map Prod.fst =
        (suffixes keys e).map fun k => blockOf i ++ "." ++ k := by
      by_cases hs : p.height / a = l.height ∧ p.width / a = l.width
      · refine ⟨false, ?_⟩
        rw [if_pos hs, List.append_nil, own_names]
        simp [suffixes]
      · refine ⟨true, ?_⟩
        rw [if_neg hs, List.map_append, own_names, margin_names, ← List.map_append]
        rfl
    obtain ⟨e, he⟩ := hone
    unfold later
    rw [List.map_append, he]
    constructor
    · rw [List.nodup_append]
      refine ⟨(suffixes_nodup hk e).map fun x y hxy => (dotted_inj (blockOf_no_dot i) (blockOf_no_dot i) hxy).2, h1, ?_⟩
      rintro x hx y hy rfl
      obtain ⟨k, _, rfl⟩ := List.mem_map.1 hx
      obtain ⟨j, s, hj, hjs⟩ := h2 _ hy
      have := blockOf_inj (dotted_inj (blockOf_no_dot i) (blockOf_no_dot j) hjs).1
      omega
    · intro x hx
      rcases List.mem_append.1 hx with hx | hx
      · obtain ⟨k, _, rfl⟩ := List.mem_map.1 hx
        exact ⟨i, k, le_rfl, rfl⟩
      · obtain ⟨j, s, hj, hjs⟩ := h2 _ hx
        exact ⟨j, s, by omega, hjs⟩

theorem starts_differ (i : Nat) (s c t : String) (hc : '.' ∉ c.toList) (h0 : c.toList.head? ≠ some 's') : blockOf i ++ "." ++ s ≠ c ++ "." ++ t := by
  intro h
  have := (dotted_inj (blockOf_no_dot i) hc h).1
  rw [← this] at h0
  apply h0
  unfold blockOf
  simp only [String.toList_append, List.append_assoc]
  rfl

/-- All parameters have different names. -/
theorem expected_names {keys : List String} (hk : Names keys) (n a image classes : Nat) (l : Layer) (ls : List Layer) :
    ((expected keys n a image classes l ls).map Prod.fst).Nodup := by
  obtain ⟨h1, h2⟩ := later_names hk n a ls 1 l
  have hown : (own keys (blockOf 0) (n * l.channels * l.height * l.width)).map Prod.fst = (suffixes keys false).map fun k => blockOf 0 ++ "." ++ k := by
    rw [own_names]
    simp [suffixes]
  have hmid : ((own keys (blockOf 0) (n * l.channels * l.height * l.width) ++ later keys n a 1 l ls).map Prod.fst).Nodup ∧
      ∀ x ∈ (own keys (blockOf 0) (n * l.channels * l.height * l.width) ++ later keys n a 1 l ls).map Prod.fst, ∃ j s, x = blockOf j ++ "." ++ s := by
    rw [List.map_append, hown]
    constructor
    · rw [List.nodup_append]
      refine ⟨(suffixes_nodup hk false).map fun x y hxy => (dotted_inj (blockOf_no_dot 0) (blockOf_no_dot 0) hxy).2, h1, ?_⟩
      rintro x hx y hy rfl
      obtain ⟨k, _, rfl⟩ := List.mem_map.1 hx
      obtain ⟨j, s, hj, hjs⟩ := h2 _ hy
      have := blockOf_inj (dotted_inj (blockOf_no_dot 0) (blockOf_no_dot j) hjs).1
      omega
    · intro x hx
      rcases List.mem_append.1 hx with hx | hx
      · obtain ⟨k, _, rfl⟩ := List.mem_map.1 hx
        exact ⟨0, k, rfl⟩
      · obtain ⟨j, s, _, hjs⟩ := h2 _ hx
        exact ⟨j, s, hjs⟩
  unfold expected
  rw [List.map_append, List.map_append]
  have hst : (stem image l).map Prod.fst = ["initial_conv" ++ "." ++ "weight", "initial_conv" ++ "." ++ "bias", "batch_norm" ++ "." ++ "weight", "batch_norm" ++ "." ++ "bias"] := by
    unfold stem
    simp only [List.map_cons, List.map_nil]
    decide +kernel
  have hhd : ∀ l', (head classes l').map Prod.fst = ["last_linear" ++ "." ++ "weight", "last_linear" ++ "." ++ "bias"] := by
    intro l'
    unfold head
    simp only [List.map_cons, List.map_nil]
    decide +kernel
  rw [hst, hhd]
  have hd : ∀ x ∈ ["initial_conv" ++ "." ++ "weight", "initial_conv" ++ "." ++ "bias", "batch_norm" ++ "." ++ "weight", "batch_norm" ++ "." ++ "bias",
      "last_linear" ++ "." ++ "weight", "last_linear" ++ "." ++ "bias"],
      x ∉ (own keys (blockOf 0) (n * l.channels * l.height * l.width) ++ later keys n a 1 l ls).map Prod.fst := by
    intro x hx hm
    obtain ⟨j, s, rfl⟩ := hmid.2 x hm
    simp only [List.mem_cons, List.not_mem_nil, or_false] at hx
    rcases hx with h | h | h | h | h | h <;> exact starts_differ j s _ _ (by decide +kernel) (by decide +kernel) h
  rw [List.nodup_append, List.nodup_append]
  refine ⟨⟨by decide +kernel, hmid.1, ?_⟩, by decide +kernel, ?_⟩
  · rintro x hx y hy rfl
    refine hd x ?_ hy
    simp only [List.mem_cons, List.not_mem_nil, or_false] at hx ⊢
    tauto
  · rintro x hx y hy rfl
    rcases List.mem_append.1 hx with hx | hx
    · exact absurd hy (by
        simp only [List.mem_cons, List.not_mem_nil, or_false] at hx
        rcases hx with rfl | rfl | rfl | rfl <;> decide +kernel)
    · refine hd x ?_ hx
      simp only [List.mem_cons, List.not_mem_nil, or_false] at hy ⊢
      tauto

end Verif.Census
