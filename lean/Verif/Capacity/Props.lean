import Verif.Capacity.Lemmas
import Verif.Conv.Lemmas
import Verif.Converge.Classes

/-!
# C100: what a number of particles can represent

The parameters of a layer are sums over the particles and their rows.  With few particles only some layers occur.
-/

set_option linter.unusedSectionVars false

namespace Verif.Capacity
open Verif.Shooting Verif.Models Verif.Conv

variable {ι β C D E O I P K : Type} [Fintype ι] [Fintype C] [Fintype D] [Fintype E] [Fintype O] [Fintype I] [Fintype P] [Fintype K]

/-! ## Specification -/

/-- The matrix of the parameters with the names `e o j`. -/
def matrixOf (e : O → I → P) (θ : P → ℝ) : Matrix O I ℝ := fun o j => θ (e o j)

/-- A matrix has one weight in the norm penalty. -/
def OneWeight (w : P → Option ℝ) (e : O → I → P) : Prop := ∃ a, ∀ o j, w (e o j) = a

/-- Whatever the parameters, some particles and costates have them. -/
def ReachesAll (f : Rhs (ι × K) P) (w : P → Option ℝ) : Prop := ∀ θ : P → ℝ, ∃ q p, ∀ θ0, directParameters f w θ0 q p = θ

/-! ## Rank -/

theorem rank_direct {f : Rhs (ι × K) P} {q p : ι × K → ℝ} {w : P → Option ℝ} {θ0 : P → ℝ} {G : P → ℝ} (h : directParameters f w θ0 q p = divideByWeight w fun r => G r / Fintype.card ι)
    {e : O → I → P} (hw : OneWeight w e) {R : Type} [Fintype R] {y : T3 ι R O} {x : T3 ι R I} (hG : ∀ o j, G (e o j) = ∑ i, ∑ c, y i c o * x i c j) :
    (matrixOf e (directParameters f w θ0 q p)).rank ≤ Fintype.card ι * Fintype.card R := by
  obtain ⟨a, ha⟩ := hw
  refine rank_rows (1 / Fintype.card ι / a.getD 1) y x _ fun o j => ?_
  show directParameters f w θ0 q p (e o j) = _
  rw [h, divideByWeight_eq, hG, weight, ha]
  ring

/-- C100: no weight matrix has a rank above the number of particles times the particle dimension. -/
theorem C100_rank (nl : ℝ → ℝ) (damp : ℝ) :
    (∀ (w : Layer D D → Option ℝ) θ0 (q p : ι × (C × D) → ℝ), OneWeight w (fun o j => (o, some j)) →
      (matrixOf (fun o j => (o, some j)) (directParameters (simple nl) w θ0 q p)).rank ≤ Fintype.card ι * Fintype.card C) ∧
    (∀ (w : UpDownPar D E → Option ℝ) θ0 (q p : ι × Two C D E → ℝ), ∀ θ ∈ [directParameters (upDown nl) w θ0 q p, directParameters (dampenedQ2 nl damp) w θ0 q p],
      (OneWeight w (fun o j => .inl (o, some j)) → (matrixOf (fun o j => .inl (o, some j)) θ).rank ≤ Fintype.card ι * Fintype.card C) ∧
      (OneWeight w (fun o j => .inr (o, some j)) → (matrixOf (fun o j => .inr (o, some j)) θ).rank ≤ Fintype.card ι * Fintype.card C)) ∧
    (∀ (w : UniversalPar D E → Option ℝ) θ0 (q p : ι × Two C D E → ℝ),
      (OneWeight w (fun o j => .inl (o, some j)) → (matrixOf (fun o j => .inl (o, some j)) (directParameters (universal nl) w θ0 q p)).rank ≤ Fintype.card ι * Fintype.card C) ∧
      (OneWeight w (fun o j => .inr (.inl (o, some j))) → (matrixOf (fun o j => .inr (.inl (o, some j))) (directParameters (universal nl) w θ0 q p)).rank ≤ Fintype.card ι * Fintype.card C) ∧
      (OneWeight w (fun o j => .inr (.inr (o, j))) → (matrixOf (fun o j => .inr (.inr (o, j))) (directParameters (universal nl) w θ0 q p)).rank ≤ Fintype.card ι * Fintype.card C)) ∧
    (∀ (w : PeriodicPar D E → Option ℝ) θ0 (q p : ι × Two C D E → ℝ),
      (OneWeight w (fun o j => .inl (o, some j)) → (matrixOf (fun o j => .inl (o, some j)) (directParameters (periodic nl) w θ0 q p)).rank ≤ Fintype.card ι * Fintype.card C) ∧
      (OneWeight w (fun o j => .inr (.inl (o, some j))) → (matrixOf (fun o j => .inr (.inl (o, some j))) (directParameters (periodic nl) w θ0 q p)).rank ≤ Fintype.card ι * Fintype.card C) ∧
      (OneWeight w (fun o j => .inr (.inr (o, j))) → (matrixOf (fun o j => .inr (.inr (o, j))) (directParameters (periodic nl) w θ0 q p)).rank ≤ Fintype.card ι * Fintype.card C)) ∧
    (∀ (w : SymmetrizedPar D E → Option ℝ) θ0 (q p : ι × Three C D E → ℝ),
      (OneWeight w (fun o j => .inl (o, some j)) → (matrixOf (fun o j => .inl (o, some j)) (directParameters (symmetrized nl) w θ0 q p)).rank ≤ Fintype.card ι * Fintype.card C) ∧
      (OneWeight w (fun o j => .inr (.inl (o, some j))) → (matrixOf (fun o j => .inr (.inl (o, some j))) (directParameters (symmetrized nl) w θ0 q p)).rank ≤ Fintype.card ι * Fintype.card C) ∧
      (OneWeight w (fun o j => .inr (.inr (o, some j))) → (matrixOf (fun o j => .inr (.inr (o, some j))) (directParameters (symmetrized nl) w θ0 q p)).rank ≤ Fintype.card ι * Fintype.card C)) := by
  refine ⟨fun w θ0 q p hw => ?_, fun w θ0 q p θ hθ => ?_, fun w θ0 q p => ⟨fun hw => ?_, fun hw => ?_, fun hw => ?_⟩, fun w θ0 q p => ⟨fun hw => ?_, fun hw => ?_, fun hw => ?_⟩,
    fun w θ0 q p => ⟨fun hw => ?_, fun hw => ?_, fun hw => ?_⟩⟩
  · exact rank_direct (direct_of_pairing_linear (pairing_simple nl q p) w θ0) hw (y := one p) (x := map nl (one q)) fun _ _ => rfl
  · rw [List.mem_cons, List.mem_singleton] at hθ
    rcases hθ with rfl | rfl
    · exact ⟨fun hw => rank_direct (direct_of_pairing_linear (pairing_upDown nl q p) w θ0) hw (y := q1 p) (x := map nl (q2 q)) fun _ _ => rfl,
        fun hw => rank_direct (direct_of_pairing_linear (pairing_upDown nl q p) w θ0) hw (y := q2 p) (x := q1 q) fun _ _ => rfl⟩
    · exact ⟨fun hw => rank_direct (direct_of_pairing (pairing_dampenedQ2 nl damp q p) w θ0) hw (y := q1 p) (x := map nl (q2 q)) fun _ _ => rfl,
        fun hw => rank_direct (direct_of_pairing (pairing_dampenedQ2 nl damp q p) w θ0) hw (y := q2 p) (x := q1 q) fun _ _ => rfl⟩
  · exact rank_direct (direct_of_pairing_linear (pairing_universal nl q p) w θ0) hw (y := q1 p) (x := map nl (q2 q)) fun _ _ => rfl
  · exact rank_direct (direct_of_pairing_linear (pairing_universal nl q p) w θ0) hw (y := q2 p) (x := q1 q) fun _ _ => rfl
  · exact rank_direct (direct_of_pairing_linear (pairing_universal nl q p) w θ0) hw (y := q2 p) (x := map nl (q2 q)) fun _ _ => rfl
  · exact rank_direct (direct_of_pairing_linear (pairing_periodic nl q p) w θ0) hw (y := q1 p) (x := map nl (q2 q)) fun _ _ => rfl
  · exact rank_direct (direct_of_pairing_linear (pairing_periodic nl q p) w θ0) hw (y := q2 p) (x := q1 q) fun _ _ => rfl
  · exact rank_direct (direct_of_pairing_linear (pairing_periodic nl q p) w θ0) hw (y := q1 p) (x := q1 q) fun _ _ => rfl
  · exact rank_direct (direct_of_pairing_linear (pairing_symmetrized nl q p) w θ0) hw (y := s1 p) (x := map nl (s2 q)) fun _ _ => rfl
  · exact rank_direct (direct_of_pairing_linear (pairing_symmetrized nl q p) w θ0) hw (y := s2 p) (x := map nl (s3 q)) fun _ _ => rfl
  · exact rank_direct (direct_of_pairing_linear (pairing_symmetrized nl q p) w θ0) hw (y := s3 p) (x := s1 q) fun _ _ => rfl

/-- C100, general up-down class: all eight weight matrices. -/
theorem C100_rank_general (nl : ℝ → ℝ) (damp : ℝ) (w : GeneralPar D E → Option ℝ) (θ0 : GeneralPar D E → ℝ) (q p : ι × Two C D E → ℝ) :
    (∀ e ∈ [fun o j => .inl (.inl (o, some j)), fun o j => .inl (.inr (.inr (.inr (o, j))))], OneWeight w e →
      (matrixOf (O := D) (I := E) e (directParameters (general nl damp) w θ0 q p)).rank ≤ Fintype.card ι * Fintype.card C) ∧
    (∀ e ∈ [fun o j => .inl (.inr (.inl (o, j))), fun o j => .inl (.inr (.inr (.inl (o, j))))], OneWeight w e →
      (matrixOf (O := D) (I := D) e (directParameters (general nl damp) w θ0 q p)).rank ≤ Fintype.card ι * Fintype.card C) ∧
    (∀ e ∈ [fun o j => .inr (.inl (o, some j)), fun o j => .inr (.inr (.inr (.inr (o, j))))], OneWeight w e →
      (matrixOf (O := E) (I := D) e (directParameters (general nl damp) w θ0 q p)).rank ≤ Fintype.card ι * Fintype.card C) ∧
    (∀ e ∈ [fun o j => .inr (.inr (.inl (o, j))), fun o j => .inr (.inr (.inr (.inl (o, j))))], OneWeight w e →
      (matrixOf (O := E) (I := E) e (directParameters (general nl damp) w θ0 q p)).rank ≤ Fintype.card ι * Fintype.card C) := by
  have h := direct_of_pairing (pairing_general nl damp q p) w θ0
  refine ⟨fun e he hw => ?_, fun e he hw => ?_, fun e he hw => ?_, fun e he hw => ?_⟩ <;> rw [List.mem_cons, List.mem_singleton] at he <;> rcases he with rfl | rfl
  · exact rank_direct h hw (y := q1 p) (x := map nl (q2 q)) fun _ _ => rfl
  · exact rank_direct h hw (y := q1 p) (x := q2 q) fun _ _ => rfl
  · exact rank_direct h hw (y := q1 p) (x := q1 q) fun _ _ => rfl
  · exact rank_direct h hw (y := q1 p) (x := map nl (q1 q)) fun _ _ => rfl
  · exact rank_direct h hw (y := q2 p) (x := q1 q) fun _ _ => rfl
  · exact rank_direct h hw (y := q2 p) (x := map nl (q1 q)) fun _ _ => rfl
  · exact rank_direct h hw (y := q2 p) (x := q2 q) fun _ _ => rfl
  · exact rank_direct h hw (y := q2 p) (x := map nl (q2 q)) fun _ _ => rfl

/-- C100, images: the kernels of a convolution, one row for each output channel, have at most as many independent rows as there are pixels of all particles. -/
theorem C100_rank_images {h v : Nat} (nl : ℝ → ℝ) (w : ConvPar C E → Option ℝ) (θ0 : ConvPar C E → ℝ) (q p : ι × Imgs C E h v → ℝ) :
    (OneWeight w (fun o j => .inl (o, some j)) → (matrixOf (fun o j => .inl (o, some j)) (directParameters (upDownConv nl) w θ0 q p)).rank ≤ Fintype.card ι * (h * v)) ∧
    (OneWeight w (fun o j => .inr (o, some j)) → (matrixOf (fun o j => .inr (o, some j)) (directParameters (upDownConv nl) w θ0 q p)).rank ≤ Fintype.card ι * (h * v)) := by
  have e := direct_of_pairing_linear (pairing_upDownConv nl q p) w θ0
  have hc : Fintype.card (Px h v) = h * v := by rw [Fintype.card_prod, Fintype.card_fin, Fintype.card_fin]
  rw [← hc]
  constructor
  · exact fun hw => rank_direct e hw (y := fun i z o => i1 p i o z) (x := fun i z j => at0 (map nl (i2 q) i j.1) (z.1 + j.2.1 - 1) (z.2 + j.2.2 - 1)) fun _ _ => rfl
  · exact fun hw => rank_direct e hw (y := fun i z o => i2 p i o z) (x := fun i z j => at0 (i1 q i j.1) (z.1 + j.2.1 - 1) (z.2 + j.2.2 - 1)) fun _ _ => rfl

/-! ## Directions -/

theorem linear_span {θ : Layer O I → ℝ} {a b : ℝ} {p : T3 ι C O} {x : T3 ι C I} (h1 : ∀ o j, θ (o, some j) = a * ∑ i, ∑ c, p i c o * x i c j) (h0 : ∀ o, θ (o, none) = b * ∑ i, ∑ c, p i c o)
    (y : T3 β C I) (s : β) (c : C) : (fun o => linear θ y s c o) ∈ Submodule.span ℝ (Set.range fun k : ι × C => p k.1 k.2) := by
  have e : (fun o => linear θ y s c o) = ∑ k : ι × C, (a * ∑ j, y s c j * x k.1 k.2 j + b) • p k.1 k.2 := by
    funext o
    rw [Finset.sum_apply, Fintype.sum_prod_type]
    unfold linear
    simp only [h1, h0, Pi.smul_apply, smul_eq_mul, add_mul, Finset.sum_add_distrib, Finset.mul_sum, Finset.sum_mul]
    congr 1
    rw [Finset.sum_comm]
    refine Finset.sum_congr rfl fun i _ => ?_
    rw [Finset.sum_comm]
    exact Finset.sum_congr rfl fun c' _ => Finset.sum_congr rfl fun j _ => by ring
  rw [e]
  exact Submodule.sum_mem _ fun k _ => Submodule.smul_mem _ _ (Submodule.subset_span ⟨k, rfl⟩)

/-- C100: at every moment all samples move in directions spanned by the costates of the particles. -/
theorem C100_directions (nl : ℝ → ℝ) :
    (∀ (w : Layer D D → Option ℝ) θ0 (q p : ι × (C × D) → ℝ) (x : β × (C × D) → ℝ), OneWeight w (fun o j => (o, some j)) → OneWeight w (fun o (_ : Unit) => (o, none)) →
      ∀ s c, (fun d => simple nl (directParameters (simple nl) w θ0 q p) x (s, (c, d))) ∈ Submodule.span ℝ (Set.range fun k : ι × C => fun d => p (k.1, (k.2, d)))) ∧
    (∀ (w : UpDownPar D E → Option ℝ) θ0 (q p : ι × Two C D E → ℝ) (x : β × Two C D E → ℝ), OneWeight w (fun o j => .inl (o, some j)) → OneWeight w (fun o (_ : Unit) => .inl (o, none)) →
      OneWeight w (fun o j => .inr (o, some j)) → OneWeight w (fun o (_ : Unit) => .inr (o, none)) →
      ∀ s c, (fun d => upDown nl (directParameters (upDown nl) w θ0 q p) x (s, .inl (c, d))) ∈ Submodule.span ℝ (Set.range fun k : ι × C => fun d => p (k.1, .inl (k.2, d))) ∧
        (fun e => upDown nl (directParameters (upDown nl) w θ0 q p) x (s, .inr (c, e))) ∈ Submodule.span ℝ (Set.range fun k : ι × C => fun e => p (k.1, .inr (k.2, e)))) := by
  constructor
  · rintro w θ0 q p x ⟨a, ha⟩ ⟨b, hb⟩ s c
    have h := direct_of_pairing_linear (pairing_simple nl q p) w θ0
    refine linear_span (a := 1 / Fintype.card ι / a.getD 1) (b := 1 / Fintype.card ι / b.getD 1) (p := one p) (x := map nl (one q)) (fun o j => ?_) (fun o => ?_) (map nl (one x)) s c
    · rw [h, divideByWeight_eq, weight, ha, gradLayer]
      ring
    · rw [h, divideByWeight_eq, weight, hb o (), gradLayer]
      ring
  · rintro w θ0 q p x ⟨a, ha⟩ ⟨b, hb⟩ ⟨a', ha'⟩ ⟨b', hb'⟩ s c
    have h := direct_of_pairing_linear (pairing_upDown nl q p) w θ0
    refine ⟨linear_span (θ := fun r => directParameters (upDown nl) w θ0 q p (.inl r)) (a := 1 / Fintype.card ι / a.getD 1) (b := 1 / Fintype.card ι / b.getD 1) (p := q1 p) (x := map nl (q2 q)) (fun o j => ?_) (fun o => ?_) (map nl (q2 x)) s c,
      linear_span (θ := fun r => directParameters (upDown nl) w θ0 q p (.inr r)) (a := 1 / Fintype.card ι / a'.getD 1) (b := 1 / Fintype.card ι / b'.getD 1) (p := q2 p) (x := q1 q) (fun o j => ?_) (fun o => ?_) (q1 x) s c⟩
    · rw [h, divideByWeight_eq, weight, ha, Sum.elim_inl, gradLayer]
      ring
    · rw [h, divideByWeight_eq, weight, hb o (), Sum.elim_inl, gradLayer]
      ring
    · rw [h, divideByWeight_eq, weight, ha', Sum.elim_inr, gradLayer]
      ring
    · rw [h, divideByWeight_eq, weight, hb' o (), Sum.elim_inr, gradLayer]
      ring

/-! ## All layers -/

theorem reachesAll_iff {f : Rhs (ι × K) P} {G : (ι × K → ℝ) → (ι × K → ℝ) → P → ℝ} {w : P → Option ℝ}
    (h : ∀ q p θ0, directParameters f w θ0 q p = divideByWeight w fun r => G q p r / Fintype.card ι) (hw : ∀ r, weight w r ≠ 0) :
    ReachesAll f w ↔ ∀ T : P → ℝ, ∃ q p, ∀ r, 1 / (Fintype.card ι : ℝ) * G q p r = T r := by
  constructor
  · intro hr T
    obtain ⟨q, p, hqp⟩ := hr fun r => T r / weight w r
    refine ⟨q, p, fun r => ?_⟩
    have := congrFun (hqp 0) r
    rw [h, divideByWeight_eq, div_left_inj' (hw r)] at this
    rw [← this]
    ring
  · intro hr θ
    obtain ⟨q, p, hqp⟩ := hr fun r => θ r * weight w r
    refine ⟨q, p, fun θ0 => funext fun r => ?_⟩
    rw [h, divideByWeight_eq, div_eq_iff (hw r), ← hqp r]
    ring

/-- Enough that the sums can have all values. -/
theorem reachesAll_of {f : Rhs (ι × K) P} {G : (ι × K → ℝ) → (ι × K → ℝ) → P → ℝ} {w : P → Option ℝ}
    (h : ∀ q p θ0, directParameters f w θ0 q p = divideByWeight w fun r => G q p r / Fintype.card ι) (hw : ∀ r, weight w r ≠ 0) (hn : Fintype.card ι ≠ 0)
    (hG : ∀ T : P → ℝ, ∃ q p, G q p = T) : ReachesAll f w := by
  rw [reachesAll_iff h hw]
  intro T
  obtain ⟨q, p, e⟩ := hG fun r => Fintype.card ι * T r
  refine ⟨q, p, fun r => ?_⟩
  have hn' : (Fintype.card ι : ℝ) ≠ 0 := by exact_mod_cast hn
  rw [e]
  field_simp

/-- Each layer a target for itself. -/
theorem particles_ne {a : Nat} (h : a < Fintype.card ι * Fintype.card C) : Fintype.card ι ≠ 0 := by
  intro h0
  rw [h0, zero_mul] at h
  omega

theorem one_single (x : T3 ι C D) : one (single x) = x := rfl
theorem q1_join (x : T3 ι C D) (y : T3 ι C E) : q1 (join x y) = x := rfl
theorem q2_join (x : T3 ι C D) (y : T3 ι C E) : q2 (join x y) = y := rfl

theorem needed_min [Nonempty O] [Nonempty I] {a : ℝ} (h : ∀ T : Layer O I → ℝ, ∃ (p : T3 ι C O) (x : T3 ι C I), ∀ r, a * gradLayer p x r = T r) :
    min (Fintype.card O) (Fintype.card I) < Fintype.card ι * Fintype.card C := by
  obtain ⟨⟨eo⟩, ⟨ei⟩⟩ := exists_diagonal O I
  obtain ⟨p, x, hpx⟩ := h (diagonal eo ei)
  have : NeZero (min (Fintype.card O) (Fintype.card I)) := ⟨by have := Fintype.card_pos (α := O); have := Fintype.card_pos (α := I); omega⟩
  have := needed eo ei hpx
  rwa [Fintype.card_fin] at this

section
variable [Nonempty D] [Nonempty E] {nl : ℝ → ℝ} (hc : Continuous nl) {a b : ℝ} (hab : nl a < nl b)
include hc hab

/-- C100, simple class: all layers occur exactly if there are more particles (times particle dimension) than features. -/
theorem C100_simple (w : Layer D D → Option ℝ) (hw : ∀ r, weight w r ≠ 0) :
    ReachesAll (simple nl : Rhs (ι × (C × D)) _) w ↔ Fintype.card D < Fintype.card ι * Fintype.card C := by
  classical
  have h : ∀ q p θ0, directParameters (simple nl : Rhs (ι × (C × D)) _) w θ0 q p = _ := fun q p θ0 => direct_of_pairing_linear (pairing_simple nl q p) w θ0
  constructor
  · intro hr
    rw [reachesAll_iff h hw] at hr
    rw [← min_self (Fintype.card D)]
    refine needed_min (a := 1 / (Fintype.card ι : ℝ)) fun T => ?_
    obtain ⟨q, p, e⟩ := hr T
    exact ⟨one p, map nl (one q), e⟩
  · intro hN
    refine reachesAll_of h hw (particles_ne hN) fun T => ?_
    obtain ⟨p, x, e⟩ := enough (O := D) (I := D) hc hab (by rwa [min_self]) T
    exact ⟨single x, single p, e⟩

/-- C100, up-down classes: the smaller of the two numbers of features counts. -/
theorem C100_upDown (damp : ℝ) (w : UpDownPar D E → Option ℝ) (hw : ∀ r, weight w r ≠ 0) :
    (ReachesAll (upDown nl : Rhs (ι × Two C D E) _) w ↔ min (Fintype.card D) (Fintype.card E) < Fintype.card ι * Fintype.card C) ∧
    (ReachesAll (dampenedQ2 nl damp : Rhs (ι × Two C D E) _) w ↔ min (Fintype.card D) (Fintype.card E) < Fintype.card ι * Fintype.card C) := by
  classical
  have h1 : ∀ q p θ0, directParameters (upDown nl : Rhs (ι × Two C D E) _) w θ0 q p = _ := fun q p θ0 => direct_of_pairing_linear (pairing_upDown nl q p) w θ0
  have h2 : ∀ q p θ0, directParameters (dampenedQ2 nl damp : Rhs (ι × Two C D E) _) w θ0 q p = _ := fun q p θ0 => direct_of_pairing (pairing_dampenedQ2 nl damp q p) w θ0
  have key : (∀ T : UpDownPar D E → ℝ, ∃ q p : ι × Two C D E → ℝ, ∀ r, 1 / (Fintype.card ι : ℝ) * Sum.elim (gradLayer (q1 p) (map nl (q2 q))) (gradLayer (q2 p) (q1 q)) r = T r) →
      min (Fintype.card D) (Fintype.card E) < Fintype.card ι * Fintype.card C := by
    intro hr
    refine needed_min (a := 1 / (Fintype.card ι : ℝ)) fun T => ?_
    obtain ⟨q, p, e⟩ := hr (Sum.elim T 0)
    exact ⟨q1 p, map nl (q2 q), fun r => e (.inl r)⟩
  have key2 : min (Fintype.card D) (Fintype.card E) < Fintype.card ι * Fintype.card C →
      ∀ T : UpDownPar D E → ℝ, ∃ q p : ι × Two C D E → ℝ, Sum.elim (gradLayer (q1 p) (map nl (q2 q))) (gradLayer (q2 p) (q1 q)) = T := by
    intro hN T
    obtain ⟨p, x, e⟩ := enough (O := D) (I := E) hc hab hN fun r => T (.inl r)
    obtain ⟨p', x', e'⟩ := enough (O := E) (I := D) (nl := fun z => z) continuous_id (a := 0) (b := 1) zero_lt_one (by rwa [min_comm]) fun r => T (.inr r)
    refine ⟨join x' x, join p p', funext fun r => ?_⟩
    rcases r with r | r
    · exact congrFun e r
    · exact congrFun e' r
  refine ⟨⟨fun hr => key ((reachesAll_iff h1 hw).mp hr), fun hN => reachesAll_of h1 hw (particles_ne hN) (key2 hN)⟩,
    ⟨fun hr => key ((reachesAll_iff h2 hw).mp hr), fun hN => reachesAll_of h2 hw (particles_ne hN) (key2 hN)⟩⟩

/-- C100, symmetrized class: as for the simple class, because of its third layer. -/
theorem C100_symmetrized (w : SymmetrizedPar D E → Option ℝ) (hw : ∀ r, weight w r ≠ 0) :
    ReachesAll (symmetrized nl : Rhs (ι × Three C D E) _) w ↔ Fintype.card D < Fintype.card ι * Fintype.card C := by
  classical
  have h : ∀ q p θ0, directParameters (symmetrized nl : Rhs (ι × Three C D E) _) w θ0 q p = _ := fun q p θ0 => direct_of_pairing_linear (pairing_symmetrized nl q p) w θ0
  constructor
  · intro hr
    rw [reachesAll_iff h hw] at hr
    rw [← min_self (Fintype.card D)]
    refine needed_min (a := 1 / (Fintype.card ι : ℝ)) fun T => ?_
    obtain ⟨q, p, e⟩ := hr (Sum.elim 0 (Sum.elim 0 T))
    exact ⟨s3 p, s1 q, fun r => e (.inr (.inr r))⟩
  · intro hN
    refine reachesAll_of h hw (particles_ne hN) fun T => ?_
    obtain ⟨p1, x2, e1⟩ := enough (O := D) (I := E) hc hab (lt_of_le_of_lt (min_le_left _ _) hN) fun r => T (.inl r)
    obtain ⟨p2, x3, e2⟩ := enough (O := E) (I := D) hc hab (lt_of_le_of_lt (min_le_right _ _) hN) fun r => T (.inr (.inl r))
    obtain ⟨p3, x1, e3⟩ := enough (O := D) (I := D) (nl := fun z => z) continuous_id (a := 0) (b := 1) zero_lt_one (by rwa [min_self]) fun r => T (.inr (.inr r))
    refine ⟨join3 x1 x2 x3, join3 p1 p2 p3, funext fun r => ?_⟩
    rcases r with r | r | r
    · exact congrFun e1 r
    · exact congrFun e2 r
    · exact congrFun e3 r

/-- C100, debug version of the simple class. -/
theorem C100_debugSimple (w : Layer D D ⊕ Layer D D → Option ℝ) (hw : ∀ r, weight w r ≠ 0) :
    ReachesAll (debugSimple nl : Rhs (ι × Two C D D) _) w ↔ Fintype.card D < Fintype.card ι * Fintype.card C := by
  classical
  have h : ∀ q p θ0, directParameters (debugSimple nl : Rhs (ι × Two C D D) _) w θ0 q p = _ := fun q p θ0 => direct_of_pairing_linear (pairing_debugSimple nl q p) w θ0
  constructor
  · intro hr
    rw [reachesAll_iff h hw] at hr
    rw [← min_self (Fintype.card D)]
    refine needed_min (a := 1 / (Fintype.card ι : ℝ)) fun T => ?_
    obtain ⟨q, p, e⟩ := hr (Sum.elim T 0)
    exact ⟨q1 p, map nl (q1 q), fun r => e (.inl r)⟩
  · intro hN
    refine reachesAll_of h hw (particles_ne hN) fun T => ?_
    obtain ⟨p, x, e⟩ := enough (O := D) (I := D) hc hab (by rwa [min_self]) fun r => T (.inl r)
    obtain ⟨p', x', e'⟩ := enough (O := D) (I := D) hc hab (by rwa [min_self]) fun r => T (.inr r)
    refine ⟨join x x', join p p', funext fun r => ?_⟩
    rcases r with r | r
    · exact congrFun e r
    · exact congrFun e' r

/-- Particles whose features and activations differ from each other in one entry each. -/
theorem spread [DecidableEq D] [DecidableEq E] (hN : Fintype.card D + Fintype.card E < Fintype.card ι * Fintype.card C) :
    ∃ (x : T3 ι C D) (y : T3 ι C E), ∀ (O : Type) [Fintype O] (θ : Layer O (D ⊕ E) → ℝ), ∃ p : T3 ι C O, ∀ o, (∀ d, ∑ i, ∑ c, p i c o * x i c d = θ (o, some (.inl d))) ∧
      (∀ e, ∑ i, ∑ c, p i c o * map nl y i c e = θ (o, some (.inr e))) ∧ ∑ i, ∑ c, p i c o = θ (o, none) := by
  rw [← Fintype.card_prod, ← Fintype.card_sum] at hN
  obtain ⟨g⟩ := Function.Embedding.nonempty_of_card_le (α := Option (D ⊕ E)) (β := ι × C) (by rw [Fintype.card_option]; omega)
  let X : Option (D ⊕ E) → D → ℝ := fun s d => s.elim 0 fun k => if k = .inl d then 1 else 0
  let Y : Option (D ⊕ E) → E → ℝ := fun s e => s.elim a fun k => if k = .inr e then b else a
  refine ⟨put g X, put g Y, fun O _ θ => ?_⟩
  obtain ⟨p, hp⟩ := by_inputs g (fun i c => Sum.elim (put g X i c) (map nl (put g Y) i c)) (Sum.elim (fun _ => 0) fun _ => nl a) (Sum.elim (fun _ => 1) fun _ => nl b)
    (fun j => by rcases j with d | e; exacts [zero_ne_one, hab.ne])
    (fun j => by
      rcases j with d | e
      · show put g X _ _ d = 0
        rw [put_at]
        rfl
      · show nl (put g Y _ _ e) = nl a
        rw [put_at]
        rfl)
    (fun k j => by
      rcases j with d | e
      · show put g X _ _ d = _
        rw [put_at]
        rfl
      · show nl (put g Y _ _ e) = _
        rw [put_at]
        exact apply_ite nl _ _ _) θ
  exact ⟨p, fun o => ⟨fun d => congrFun hp (o, some (.inl d)), fun e => congrFun hp (o, some (.inr e)), congrFun hp (o, none)⟩⟩

/-- C100, universal and periodic classes: more particles than features of both kinds together are enough; no more particles than features of the kind with the additional matrix are too few. -/
theorem C100_additional (w : UniversalPar D E → Option ℝ) (hw : ∀ r, weight w r ≠ 0) (w' : PeriodicPar D E → Option ℝ) (hw' : ∀ r, weight w' r ≠ 0) :
    (Fintype.card D + Fintype.card E < Fintype.card ι * Fintype.card C →
      ReachesAll (universal nl : Rhs (ι × Two C D E) _) w ∧ ReachesAll (periodic nl : Rhs (ι × Two C D E) _) w') ∧
    (ReachesAll (universal nl : Rhs (ι × Two C D E) _) w → Fintype.card E < Fintype.card ι * Fintype.card C) ∧
    (ReachesAll (periodic nl : Rhs (ι × Two C D E) _) w' → Fintype.card D < Fintype.card ι * Fintype.card C) := by
  classical
  have h1 : ∀ q p θ0, directParameters (universal nl : Rhs (ι × Two C D E) _) w θ0 q p = _ := fun q p θ0 => direct_of_pairing_linear (pairing_universal nl q p) w θ0
  have h2 : ∀ q p θ0, directParameters (periodic nl : Rhs (ι × Two C D E) _) w' θ0 q p = _ := fun q p θ0 => direct_of_pairing_linear (pairing_periodic nl q p) w' θ0
  refine ⟨fun hN => ?_, fun hr => ?_, fun hr => ?_⟩
  · obtain ⟨x, y, hxy⟩ := spread (ι := ι) (C := C) (D := D) (E := E) hc hab hN
    refine ⟨reachesAll_of h1 hw (particles_ne hN) fun T => ?_, reachesAll_of h2 hw' (particles_ne hN) fun T => ?_⟩
    · obtain ⟨p, hp⟩ := hxy D fun r => r.2.elim (T (.inl (r.1, none))) (Sum.elim 0 fun e => T (.inl (r.1, some e)))
      obtain ⟨p', hp'⟩ := hxy E fun r => r.2.elim (T (.inr (.inl (r.1, none)))) (Sum.elim (fun d => T (.inr (.inl (r.1, some d)))) fun e => T (.inr (.inr (r.1, e))))
      refine ⟨join x y, join p p', funext fun r => ?_⟩
      rcases r with ⟨o, _ | e⟩ | ⟨o, _ | d⟩ | ⟨o, e⟩
      · exact (hp o).2.2
      · exact (hp o).2.1 e
      · exact (hp' o).2.2
      · exact (hp' o).1 d
      · exact (hp' o).2.1 e
    · obtain ⟨p, hp⟩ := hxy D fun r => r.2.elim (T (.inl (r.1, none))) (Sum.elim (fun d => T (.inr (.inr (r.1, d)))) fun e => T (.inl (r.1, some e)))
      obtain ⟨p', hp'⟩ := hxy E fun r => r.2.elim (T (.inr (.inl (r.1, none)))) (Sum.elim (fun d => T (.inr (.inl (r.1, some d)))) 0)
      refine ⟨join x y, join p p', funext fun r => ?_⟩
      rcases r with ⟨o, _ | e⟩ | ⟨o, _ | d⟩ | ⟨o, d⟩
      · exact (hp o).2.2
      · exact (hp o).2.1 e
      · exact (hp' o).2.2
      · exact (hp' o).1 d
      · exact (hp o).1 d
  · rw [reachesAll_iff h1 hw] at hr
    rw [← min_self (Fintype.card E)]
    refine needed_min (O := E) (I := E) (a := 1 / (Fintype.card ι : ℝ)) fun T => ?_
    obtain ⟨q, p, e⟩ := hr (Sum.elim 0 (Sum.elim (fun r => r.2.elim (T (r.1, none)) 0) fun r => T (r.1, some r.2)))
    refine ⟨q2 p, map nl (q2 q), fun r => ?_⟩
    rcases r with ⟨o, _ | j⟩
    · exact e (.inr (.inl (o, none)))
    · exact e (.inr (.inr (o, j)))
  · rw [reachesAll_iff h2 hw'] at hr
    rw [← min_self (Fintype.card D)]
    refine needed_min (O := D) (I := D) (a := 1 / (Fintype.card ι : ℝ)) fun T => ?_
    obtain ⟨q, p, e⟩ := hr (Sum.elim (fun r => r.2.elim (T (r.1, none)) 0) (Sum.elim 0 fun r => T (r.1, some r.2)))
    refine ⟨q1 p, q1 q, fun r => ?_⟩
    rcases r with ⟨o, _ | j⟩
    · exact e (.inl (o, none))
    · exact e (.inr (.inr (o, j)))

end

/-- C100: the hypotheses on the nonlinearity hold for every name that is accepted. -/
theorem C100_nonlinearities (s : Option (List Char)) (n : Activation.Name) (hs : Activation.choose s = .ok n) :
    ∃ f g, Activation.getNonlinearity s = .ok (f, g) ∧ Continuous f ∧ f 0 < f 1 := by
  refine ⟨(Activation.pair n).1, (Activation.pair n).2, by unfold Activation.getNonlinearity; rw [hs]; rfl, ?_⟩
  cases n with
  | relu =>
    refine ⟨continuous_id.max continuous_const, ?_⟩
    show max (0 : ℝ) 0 < max 1 0
    rw [max_self, max_eq_left zero_le_one]
    exact zero_lt_one
  | tanh =>
    refine ⟨(Converge.contDiff_tanh (n := 1)).continuous, ?_⟩
    show Real.tanh 0 < Real.tanh 1
    rw [Real.tanh_zero, Real.tanh_eq_sinh_div_cosh]
    exact div_pos (Real.sinh_pos_iff.mpr one_pos) (Real.cosh_pos 1)
  | identity => exact ⟨continuous_id, zero_lt_one⟩
  | sigmoid =>
    refine ⟨(Converge.contDiff_sigmoid (n := 1)).continuous, ?_⟩
    show 1 / (1 + Real.exp (-0)) < 1 / (1 + Real.exp (-1))
    have h1 : Real.exp (-1) < Real.exp (-0) := Real.exp_lt_exp.mpr (by norm_num)
    exact one_div_lt_one_div_of_lt (by have := Real.exp_pos (-1); linarith) (by linarith)
  | softmax =>
    refine ⟨(Converge.contDiff_softmax (n := 1) 1).continuous, ?_⟩
    show 0 * 1 / (Real.exp (-0 * 1) + 1) < 1 * 1 / (Real.exp (-1 * 1) + 1)
    rw [zero_mul, zero_div]
    exact div_pos (by norm_num) (by have := Real.exp_pos (-1 * 1); linarith)

/-! ## Examples -/

/-- Two features, the accepted name `relu`: three particles reach every layer, two do not. -/
example : ∃ f g, Activation.getNonlinearity (some "ReLU".toList) = .ok (f, g) ∧ ReachesAll (simple f : Rhs (Fin 3 × (Unit × Fin 2)) _) (fun _ => none) ∧
    ¬ ReachesAll (simple f : Rhs (Fin 2 × (Unit × Fin 2)) _) (fun _ => none) := by
  obtain ⟨f, g, h, hc, hab⟩ := C100_nonlinearities (some "ReLU".toList) .relu (by decide)
  exact ⟨f, g, h, (C100_simple hc hab _ fun _ => one_ne_zero).mpr (by decide), fun hr => absurd ((C100_simple hc hab _ fun _ => one_ne_zero).mp hr) (by decide)⟩

/-- One particle: the weight matrices have rank one, whatever the inflation. -/
example (q p : Fin 1 × Two Unit (Fin 2) (Fin 10) → ℝ) : (matrixOf (fun o j => .inl (o, some j)) (directParameters (upDown Real.tanh) (fun _ => some 2) 0 q p)).rank ≤ 1 :=
  ((C100_rank (D := Fin 2) (E := Fin 10) Real.tanh 0).2.1 _ 0 q p _ (List.mem_cons_self ..)).1 ⟨some 2, fun _ _ => rfl⟩

example : OneWeight (fun _ : Layer (Fin 2) (Fin 2) => some (2 : ℝ)) (fun o j => (o, some j)) ∧ OneWeight (fun _ : Layer (Fin 2) (Fin 2) => some (2 : ℝ)) (fun o (_ : Unit) => (o, none)) :=
  ⟨⟨some 2, fun _ _ => rfl⟩, ⟨some 2, fun _ _ => rfl⟩⟩

end Verif.Capacity
