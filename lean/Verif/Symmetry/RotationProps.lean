import Verif.Symmetry.Rotation
import Verif.Symmetry.Props

/-!
# C63: rotating the data space and permMatrix hidden units

`U` is any orthogonal matrix acting on the features of `q1` (for the classes that do not apply the nonlinearity to `q1`), `V` any
orthogonal matrix acting on the features of `q2` that the nonlinearity commutes with: for every nonlinearity all renamings of the
hidden units, for odd ones (tanh) also sign changes.
-/

set_option linter.unusedSectionVars false

namespace Verif.Symmetry
open Verif.Shooting Verif.Models Verif.Evolution

variable {ι β K P : Type} [Fintype ι] [Fintype K] [Fintype P]

/-- Applying the nonlinearity to every entry of a vector commutes with the matrix. -/
def Commutes {E : Type} [Fintype E] (nl : ℝ → ℝ) (V : E → E → ℝ) : Prop := ∀ x : E → ℝ, (fun e => nl (mv V x e)) = mv V fun e => nl (x e)

/-- The matrix that renames unit `π e` to `e`. -/
def permMatrix {E : Type} [DecidableEq E] (π : Equiv.Perm E) : E → E → ℝ := fun e e' => if e' = π e then 1 else 0

/-- All vectors of a moved run are the moved vectors of the run. -/
def MovesAlong (F F' : ℝ → Sys ι β K → Sys ι β K) (L : (K → ℝ) → (K → ℝ)) : Prop :=
  (∀ prog s, run F' prog [moveAll L s] = (run F prog [s]).map (moveAll L)) ∧
    (∀ h t n s, euler F' h t n (moveAll L s) = moveAll L (euler F h t n s)) ∧
    (∀ h t n s, rk4 F' h t n (moveAll L s) = moveAll L (rk4 F h t n s))

theorem movesAlong_of_field {F F' : ℝ → Sys ι β K → Sys ι β K} (L : (K → ℝ) →ₗ[ℝ] (K → ℝ))
    (h : ∀ t s, F' t (moveAll L s) = moveAll L (F t s)) : MovesAlong F F' L :=
  ⟨fun prog s => run_map (moveL L) h prog [s], euler_map (moveL L) h, rk4_map (moveL L) h⟩

/-- C63, parameters and penalty: moving states and costates moves the parameters; the norm penalty does not change. -/
theorem C63_parameters {f : Class K P} (hf : Fits f) {w : P → Option ℝ} (hw : ∀ r, 0 < weight w r) {L : (K → ℝ) →ₗ[ℝ] (K → ℝ)}
    {ρ : (P → ℝ) →ₗ[ℝ] (P → ℝ)} (h : IsSymmetry f w L ρ) (θ0 θ1 : P → ℝ) (q p : ι × K → ℝ) :
    directParameters (f ι) w θ1 (mapRows L q) (mapRows L p) = ρ (directParameters (f ι) w θ0 q p) ∧
      kineticEnergy w (directParameters (f ι) w θ1 (mapRows L q) (mapRows L p)) = kineticEnergy w (directParameters (f ι) w θ0 q p) := by
  have h1 := direct_move hf.rowwise (hf.affine ι) hw h θ0 θ1 q p
  refine ⟨h1, ?_⟩
  rw [h1, (lagrangian_move hf.rowwise h q p _).1]

/-- C63, whole evolutions, for any class with a symmetry. -/
theorem C63_evolution [Nonempty ι] {f : Class K P} (hf : Fits f) {w : P → Option ℝ} (hw : ∀ r, 0 < weight w r)
    {L : (K → ℝ) →ₗ[ℝ] (K → ℝ)} {ρ : (P → ℝ) →ₗ[ℝ] (P → ℝ)} (h : IsSymmetry f w L ρ) (r r' : ℝ → (P → ℝ) × (P → ℝ)) :
    MovesAlong (ι := ι) (β := β) (field f (autodiff f w r)) (field f (autodiff f w r')) L := by
  refine movesAlong_of_field L fun t s => ?_
  have h1 := direct_move hf.rowwise (hf.affine ι) hw h (r t).1 (r' t).1 s.1 s.2.1
  have h2 := costate_move hf.rowwise hf.diff (hf.affine ι) hw h (r t).2 (r' t).2 s.1 s.2.1
  simp only [field, autodiff, moveAll, h1, h2, rhs_move hf.rowwise h]

section Classes
variable {C D E : Type} [Fintype C] [Fintype D] [Fintype E] [DecidableEq D] [DecidableEq E]

theorem orthogonal_renaming (π : Equiv.Perm E) : OrthogonalMatrix (permMatrix π) := by
  intro a b
  have : ∀ d, permMatrix π d a * permMatrix π d b = if d = π.symm a then (if a = b then 1 else 0) else 0 := by
    intro d
    unfold permMatrix
    by_cases h : d = π.symm a
    · subst h
      by_cases hab : a = b
      · subst hab; simp
      · simp [hab, Ne.symm hab]
    · have : a ≠ π d := fun e => h (by rw [e]; simp)
      simp [h, this]
  simp [this]

theorem mv_renaming (π : Equiv.Perm E) (x : E → ℝ) (e : E) : mv (permMatrix π) x e = x (π e) := by
  simp [mv, permMatrix]

/-- Every nonlinearity commutes with every renaming. -/
theorem commutes_renaming (nl : ℝ → ℝ) (π : Equiv.Perm E) : Commutes nl (permMatrix π) := by
  intro x
  funext e
  rw [mv_renaming, mv_renaming]

/-- An odd nonlinearity commutes with sign changes. -/
theorem commutes_signs (nl : ℝ → ℝ) (hnl : ∀ x, nl (-x) = -nl x) (σ : E → Bool) :
    Commutes nl fun e e' => if e' = e then (if σ e then -1 else 1) else 0 := by
  intro x
  funext e
  cases h : σ e <;> simp [mv, h, hnl]

/-- The weights of a layer: one number for the weight matrix, one for the bias, both positive. -/
structure PerTensor {O I : Type} (w : Layer O I → Option ℝ) (a b : ℝ) : Prop where
  weight : ∀ o j, weight w (o, some j) = a
  bias : ∀ o, Shooting.weight w (o, none) = b

theorem symmetry_upDown (nl : ℝ → ℝ) {U : D → D → ℝ} {V : E → E → ℝ} (hU : OrthogonalMatrix U) (hV : OrthogonalMatrix V) (hc : Commutes nl V)
    {w : UpDownPar D E → Option ℝ} {a1 b1 a2 b2 : ℝ} (h1 : PerTensor (fun r => w (.inl r)) a1 b1) (h2 : PerTensor (fun r => w (.inr r)) a2 b2) :
    IsSymmetry (K := Two C D E) (fun _ => upDown nl) w (moveTwo U V) (moveSum (moveLayer U V) (moveLayer V U)) := by
  refine ⟨orthogonal_moveTwo hU hV, iso_moveSum (iso_moveLayer hU hV h1.1 h1.2) (iso_moveLayer hV hU h2.1 h2.2), fun θ y => ?_⟩
  funext k
  rcases k with ⟨c, d⟩ | ⟨c, e⟩
  · refine Eq.trans ?_ (linear_move U hV (fun r => θ (.inl r)) (fun e => nl (y (.inr (c, e)))) d)
    rw [← hc fun e => y (.inr (c, e))]
    rfl
  · exact linear_move V hU (fun r => θ (.inr r)) (fun d => y (.inl (c, d))) e

theorem symmetry_dampenedQ2 (nl : ℝ → ℝ) (damp : ℝ) {U : D → D → ℝ} {V : E → E → ℝ} (hU : OrthogonalMatrix U) (hV : OrthogonalMatrix V)
    (hc : Commutes nl V) {w : UpDownPar D E → Option ℝ} {a1 b1 a2 b2 : ℝ} (h1 : PerTensor (fun r => w (.inl r)) a1 b1)
    (h2 : PerTensor (fun r => w (.inr r)) a2 b2) :
    IsSymmetry (K := Two C D E) (fun _ => dampenedQ2 nl damp) w (moveTwo U V) (moveSum (moveLayer U V) (moveLayer V U)) := by
  have h := symmetry_upDown (C := C) nl hU hV hc h1 h2
  refine ⟨h.orth, h.iso, fun θ y => ?_⟩
  funext k
  rcases k with ⟨c, d⟩ | ⟨c, e⟩
  · exact congrFun (h.equiv θ y) (.inl (c, d))
  · have h3 := congrFun (h.equiv θ y) (.inr (c, e))
    have e1 : (fun e' => rowRhs (fun _ => dampenedQ2 nl damp) θ y (.inr (c, e'))) =
        (fun e' => rowRhs (K := Two C D E) (fun _ => upDown nl) θ y (.inr (c, e'))) + (-damp) • fun e' => y (.inr (c, e')) := by
      funext e'
      show _ - damp * _ = _ + -damp * _
      rw [sub_eq_add_neg, neg_mul]
      rfl
    show _ = mv V (fun e' => rowRhs (fun _ => dampenedQ2 nl damp) θ y (.inr (c, e'))) e
    rw [e1, mv_add, mv_smul]
    show rowRhs (K := Two C D E) (fun _ => upDown nl) _ _ (.inr (c, e)) - damp * mv V (fun e' => y (.inr (c, e'))) e = _
    rw [h3]
    show _ = mv V _ e + -damp * mv V _ e
    rw [sub_eq_add_neg, neg_mul]
    rfl

theorem symmetry_universal (nl : ℝ → ℝ) {U : D → D → ℝ} {V : E → E → ℝ} (hU : OrthogonalMatrix U) (hV : OrthogonalMatrix V) (hc : Commutes nl V)
    {w : UniversalPar D E → Option ℝ} {a1 b1 a2 b2 a3 : ℝ} (h1 : PerTensor (fun r => w (.inl r)) a1 b1)
    (h2 : PerTensor (fun r => w (.inr (.inl r))) a2 b2) (h3 : ∀ r, weight w (.inr (.inr r)) = a3) :
    IsSymmetry (K := Two C D E) (fun _ => universal nl) w (moveTwo U V) (moveSum (moveLayer U V) (moveSum (moveLayer V U) (moveNB V V))) := by
  refine ⟨orthogonal_moveTwo hU hV, iso_moveSum (iso_moveLayer hU hV h1.1 h1.2)
    (iso_moveSum (iso_moveLayer hV hU h2.1 h2.2) (iso_moveNB hV hV h3)), fun θ y => ?_⟩
  funext k
  rcases k with ⟨c, d⟩ | ⟨c, e⟩
  · refine Eq.trans ?_ (linear_move U hV (fun r => θ (.inl r)) (fun e => nl (y (.inr (c, e)))) d)
    rw [← hc fun e => y (.inr (c, e))]
    rfl
  · have h4 := linear_move V hU (fun r => θ (.inr (.inl r))) (fun d => y (.inl (c, d))) e
    have h5 := linearNB_move V hV (fun r => θ (.inr (.inr r))) (fun e => nl (y (.inr (c, e)))) e
    rw [← hc fun e => y (.inr (c, e))] at h5
    refine Eq.trans (congrArg₂ (· + ·) h4 h5) ?_
    exact (congrFun (mv_add V _ _) e).symm

theorem symmetry_periodic (nl : ℝ → ℝ) {U : D → D → ℝ} {V : E → E → ℝ} (hU : OrthogonalMatrix U) (hV : OrthogonalMatrix V) (hc : Commutes nl V)
    {w : PeriodicPar D E → Option ℝ} {a1 b1 a2 b2 a3 : ℝ} (h1 : PerTensor (fun r => w (.inl r)) a1 b1)
    (h2 : PerTensor (fun r => w (.inr (.inl r))) a2 b2) (h3 : ∀ r, weight w (.inr (.inr r)) = a3) :
    IsSymmetry (K := Two C D E) (fun _ => periodic nl) w (moveTwo U V) (moveSum (moveLayer U V) (moveSum (moveLayer V U) (moveNB U U))) := by
  refine ⟨orthogonal_moveTwo hU hV, iso_moveSum (iso_moveLayer hU hV h1.1 h1.2)
    (iso_moveSum (iso_moveLayer hV hU h2.1 h2.2) (iso_moveNB hU hU h3)), fun θ y => ?_⟩
  funext k
  rcases k with ⟨c, d⟩ | ⟨c, e⟩
  · have h4 := linear_move U hV (fun r => θ (.inl r)) (fun e => nl (y (.inr (c, e)))) d
    rw [← hc fun e => y (.inr (c, e))] at h4
    have h5 := linearNB_move U hU (fun r => θ (.inr (.inr r))) (fun d => y (.inl (c, d))) d
    refine Eq.trans (congrArg₂ (· + ·) h4 h5) ?_
    exact (congrFun (mv_add U _ _) d).symm
  · exact linear_move V hU (fun r => θ (.inr (.inl r))) (fun d => y (.inl (c, d))) e

theorem symmetry_simple (nl : ℝ → ℝ) {U : D → D → ℝ} (hU : OrthogonalMatrix U) (hc : Commutes nl U)
    {w : Layer D D → Option ℝ} {a b : ℝ} (h : PerTensor w a b) :
    IsSymmetry (K := C × D) (fun _ => simple nl) w (moveOne U) (moveLayer U U) := by
  refine ⟨orthogonal_moveOne hU, iso_moveLayer hU hU h.1 h.2, fun θ y => ?_⟩
  funext k
  refine Eq.trans ?_ (linear_move U hU θ (fun d => nl (y (k.1, d))) k.2)
  rw [← hc fun d => y (k.1, d)]
  rfl

/-- C63 for the classes with a rotation: evolving rotated (`U` on `q1`, `V` on `q2`) states, costates and data gives the rotated evolution. -/
theorem C63_rotations [Nonempty ι] {nl : ℝ → ℝ} (hnl : Differentiable ℝ nl) (damp : ℝ) {U : D → D → ℝ} {V : E → E → ℝ}
    (hU : OrthogonalMatrix U) (hV : OrthogonalMatrix V) (hc : Commutes nl V) {a1 b1 a2 b2 a3 : ℝ} :
    (∀ (w : UpDownPar D E → Option ℝ) r r', (∀ x, 0 < weight w x) → PerTensor (fun r => w (.inl r)) a1 b1 →
      PerTensor (fun r => w (.inr r)) a2 b2 →
      MovesAlong (ι := ι) (β := β) (K := Two C D E) (field (fun _ => upDown nl) (autodiff (fun _ => upDown nl) w r))
        (field (fun _ => upDown nl) (autodiff (fun _ => upDown nl) w r')) (moveTwo U V) ∧
      MovesAlong (ι := ι) (β := β) (K := Two C D E) (field (fun _ => dampenedQ2 nl damp) (autodiff (fun _ => dampenedQ2 nl damp) w r))
        (field (fun _ => dampenedQ2 nl damp) (autodiff (fun _ => dampenedQ2 nl damp) w r')) (moveTwo U V)) ∧
    (∀ (w : UniversalPar D E → Option ℝ) r r', (∀ x, 0 < weight w x) → PerTensor (fun r => w (.inl r)) a1 b1 →
      PerTensor (fun r => w (.inr (.inl r))) a2 b2 → (∀ x, weight w (.inr (.inr x)) = a3) →
      MovesAlong (ι := ι) (β := β) (K := Two C D E) (field (fun _ => universal nl) (autodiff (fun _ => universal nl) w r))
        (field (fun _ => universal nl) (autodiff (fun _ => universal nl) w r')) (moveTwo U V)) ∧
    (∀ (w : PeriodicPar D E → Option ℝ) r r', (∀ x, 0 < weight w x) → PerTensor (fun r => w (.inl r)) a1 b1 →
      PerTensor (fun r => w (.inr (.inl r))) a2 b2 → (∀ x, weight w (.inr (.inr x)) = a3) →
      MovesAlong (ι := ι) (β := β) (K := Two C D E) (field (fun _ => periodic nl) (autodiff (fun _ => periodic nl) w r))
        (field (fun _ => periodic nl) (autodiff (fun _ => periodic nl) w r')) (moveTwo U V)) := by
  obtain ⟨_, f2, f3, _, f5, f6, _⟩ := C60_classes (C := C) (D := D) (E := E) (h := 0) (w := 0) hnl damp zero_lt_one
  exact ⟨fun w r r' hw h1 h2 => ⟨C63_evolution f2 hw (symmetry_upDown nl hU hV hc h1 h2) r r',
      C63_evolution f6 hw (symmetry_dampenedQ2 nl damp hU hV hc h1 h2) r r'⟩,
    fun w r r' hw h1 h2 h3 => C63_evolution f3 hw (symmetry_universal nl hU hV hc h1 h2 h3) r r',
    fun w r r' hw h1 h2 h3 => C63_evolution f5 hw (symmetry_periodic nl hU hV hc h1 h2 h3) r r'⟩

/-- C63 in coordinates for the up-down class: start with the rotated data and particles and with renamed hidden units; then the final
data features are the rotated ones, whatever the number of Runge–Kutta steps. -/
theorem C63_predictions_rotate [Nonempty ι] {nl : ℝ → ℝ} (hnl : Differentiable ℝ nl) {U : D → D → ℝ} (hU : OrthogonalMatrix U)
    (π : Equiv.Perm E) {a1 b1 a2 b2 : ℝ} (w : UpDownPar D E → Option ℝ) (r r' : ℝ → (UpDownPar D E → ℝ) × (UpDownPar D E → ℝ))
    (hw : ∀ x, 0 < weight w x) (h1 : PerTensor (fun r => w (.inl r)) a1 b1) (h2 : PerTensor (fun r => w (.inr r)) a2 b2)
    (s s' : Sys ι β (Two C D E))
    (hq1 : ∀ i c d, s'.1 (i, .inl (c, d)) = ∑ d', U d d' * s.1 (i, .inl (c, d'))) (hq2 : ∀ i c e, s'.1 (i, .inr (c, e)) = s.1 (i, .inr (c, π e)))
    (hp1 : ∀ i c d, s'.2.1 (i, .inl (c, d)) = ∑ d', U d d' * s.2.1 (i, .inl (c, d')))
    (hp2 : ∀ i c e, s'.2.1 (i, .inr (c, e)) = s.2.1 (i, .inr (c, π e)))
    (hx1 : ∀ b c d, s'.2.2 (b, .inl (c, d)) = ∑ d', U d d' * s.2.2 (b, .inl (c, d')))
    (hx2 : ∀ b c e, s'.2.2 (b, .inr (c, e)) = s.2.2 (b, .inr (c, π e))) (h t : ℝ) (n : ℕ) (b : β) (c : C) :
    (∀ d, (rk4 (field (fun _ => upDown nl) (autodiff (fun _ => upDown nl) w r')) h t n s').2.2 (b, .inl (c, d)) =
      ∑ d', U d d' * (rk4 (field (fun _ => upDown nl) (autodiff (fun _ => upDown nl) w r)) h t n s).2.2 (b, .inl (c, d'))) ∧
    ∀ e, (rk4 (field (fun _ => upDown nl) (autodiff (fun _ => upDown nl) w r')) h t n s').2.2 (b, .inr (c, e)) =
      (rk4 (field (fun _ => upDown nl) (autodiff (fun _ => upDown nl) w r)) h t n s).2.2 (b, .inr (c, π e)) := by
  have e : s' = moveAll (moveTwo U (permMatrix π)) s := by
    refine Prod.ext ?_ (Prod.ext ?_ ?_)
    · funext ⟨i, k⟩
      rcases k with ⟨c, d⟩ | ⟨c, e⟩
      · exact hq1 i c d
      · exact (hq2 i c e).trans (mv_renaming π (fun e' => s.1 (i, .inr (c, e'))) e).symm
    · funext ⟨i, k⟩
      rcases k with ⟨c, d⟩ | ⟨c, e⟩
      · exact hp1 i c d
      · exact (hp2 i c e).trans (mv_renaming π (fun e' => s.2.1 (i, .inr (c, e'))) e).symm
    · funext ⟨i, k⟩
      rcases k with ⟨c, d⟩ | ⟨c, e⟩
      · exact hx1 i c d
      · exact (hx2 i c e).trans (mv_renaming π (fun e' => s.2.2 (i, .inr (c, e'))) e).symm
  have h3 := (((C63_rotations (ι := ι) (β := β) (C := C) (a1 := a1) (b1 := b1) (a2 := a2) (b2 := b2) (a3 := 0) hnl 0 hU
    (orthogonal_renaming π) (commutes_renaming nl π)).1 w r r' hw h1 h2).1).2.2 h t n s
  rw [e, h3]
  exact ⟨fun d => rfl, fun e => mv_renaming π _ e⟩

/-- C63 for the simple class: permMatrix the features (any matrix the nonlinearity commutes with). -/
theorem C63_simple [Nonempty ι] {nl : ℝ → ℝ} (hnl : Differentiable ℝ nl) {U : D → D → ℝ} (hU : OrthogonalMatrix U) (hc : Commutes nl U)
    {a b : ℝ} (w : Layer D D → Option ℝ) (r r' : ℝ → (Layer D D → ℝ) × (Layer D D → ℝ)) (hw : ∀ x, 0 < weight w x) (h : PerTensor w a b) :
    MovesAlong (ι := ι) (β := β) (K := C × D) (field (fun _ => simple nl) (autodiff (fun _ => simple nl) w r))
        (field (fun _ => simple nl) (autodiff (fun _ => simple nl) w r')) (moveOne U) := by
  obtain ⟨f1, _⟩ := C60_classes (C := C) (D := D) (E := Unit) (h := 0) (w := 0) hnl 0 zero_lt_one
  exact C63_evolution f1 hw (symmetry_simple nl hU hc h) r r'

end Classes

/-- The hypotheses can be met: two features rotated by the angle with cosine 3/5 and sine 4/5, three hidden units renamed cyclically,
weights 3 and 1. -/
example : OrthogonalMatrix (fun a b : Fin 2 => (![![3/5, -4/5], ![4/5, 3/5]] : Fin 2 → Fin 2 → ℝ) a b) ∧
    OrthogonalMatrix (permMatrix (finRotate 3)) ∧ Commutes Real.tanh (permMatrix (finRotate 3)) ∧
    PerTensor (O := Fin 2) (I := Fin 3) (fun r => if r.2 = none then none else some 3) 3 1 := by
  refine ⟨?_, orthogonal_renaming _, commutes_renaming _ _, ⟨fun o j => by simp [weight], fun o => by simp [weight]⟩⟩
  intro a b
  fin_cases a <;> fin_cases b <;> norm_num [Fin.sum_univ_two]

/-- Weights that differ inside a tensor are not covered, and with them the property fails already for one step of one particle: two
features exchanged, weights 1 and 2 on the two biases. -/
theorem C63_per_tensor_needed :
    directParameters (simple (ι := Unit) (C := Unit) (D := Bool) (fun _ => 0)) (fun r => if r.1 then some 2 else some 1) (fun _ => 0)
      (fun _ => 0) (mapRows (moveOne (permMatrix (Equiv.swap true false))) fun m => if m.2.2 then 1 else 0) (false, none) ≠
    directParameters (simple (ι := Unit) (C := Unit) (D := Bool) (fun _ => 0)) (fun r => if r.1 then some 2 else some 1) (fun _ => 0)
      (fun _ => 0) (fun m => if m.2.2 then 1 else 0) (true, none) := by
  rw [directParameters_eq (linear_simple _).affine, directParameters_eq (linear_simple _).affine]
  simp [potCoeff, coeff, weight, simple, single, linear, Models.map, mapRows, moveOne, mv_renaming, Fintype.sum_prod_type]

end Verif.Symmetry
