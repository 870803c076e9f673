import Verif.Whole.Run

/-!
# One evaluation of the integrand
-/

namespace Verif.Whole
open Verif Verif.Tensor Verif.Assembly Verif.Evolution Verif.Flow

variable {K K' P R H D : Type}

/-- The concatenation dimension exists. -/
def DimOk (L : Lay K) (dim : Nat) : Prop := dim ≤ 4 ∧ ∀ e ∈ L.names, dim ≤ e.2.length

section Rule
variable (c : Cls K K' P R)

theorem advect_single {L : Lay K} (f : Evolution.Class K P) (hL : L.Ok) (nm : String) {m : Nat} (x : Fin m × K → ℝ) {dim : Nat} (hd : DimOk L dim) (θ : Par P R) :
    advect L f true dim θ [(nm, enc L "" m x)] = .ok [(nm, enc L "dot_" m (f (Fin m) θ.1 x))] := by
  unfold advect
  rw [if_pos rfl, concat_single nm _ (enc_sorted hL _ _ _)]
  show (do
    let q ← readRows L "" (rowCount L "" (enc L "" m x)) (enc L "" m x)
    Concat.splitDicts (enc L "dot_" _ (f (Fin _) θ.1 q)) [(nm, enc L "" m x)] dim) = _
  rw [rowCount_enc hL, readRows_enc hL]
  exact split_single hL nm "dot_" "" m _ x dim hd.1 hd.2

theorem readBoth_trip (hL : c.lay.Ok) (nm : String) {n B : Nat} (z : Sys2 (Fin n) (Fin B) K K') (dim : Nat) :
    readBoth c dim (trip c.lay c.dataLay nm z) = .ok ⟨n, z.1, z.2.1⟩ := by
  unfold readBoth trip
  rw [concat_single nm _ (enc_sorted hL _ _ _)]
  simp only [bind, Except.bind]
  rw [concat_single nm _ (enc_sorted hL _ _ _)]
  simp only
  have hm := rowCount_enc hL "" n z.1
  generalize rowCount c.lay "" (enc c.lay "" n z.1) = m at hm ⊢
  subst hm
  simp only [readRows_enc hL]

theorem rule_compute (hL : c.lay.Ok) (nm : String) {n B : Nat} (z : Sys2 (Fin n) (Fin B) K K') (dim dataDim : Nat) (r : R) :
    (rule c true dim dataDim).compute r (trip c.lay c.dataLay nm z) = .ok (c.par n r z.1 z.2.1, r) := by
  simp only [rule, if_true, readBoth_trip c hL nm z, bind, Except.bind]

theorem rule_state (hL : c.lay.Ok) (nm : String) {n B : Nat} (z : Sys2 (Fin n) (Fin B) K K') {dim : Nat} (dataDim : Nat) (hd : DimOk c.lay dim) (θ : Par P R) :
    (rule c true dim dataDim).stateRhs θ (trip c.lay c.dataLay nm z) = .ok [(nm, enc c.lay "dot_" n (c.rhs (Fin n) θ.1 z.1))] :=
  advect_single c.rhs hL nm z.1 hd θ

theorem rule_data (hL' : c.dataLay.Ok) (nm : String) {n B : Nat} (z : Sys2 (Fin n) (Fin B) K K') (dim : Nat) {dataDim : Nat} (hd : DimOk c.dataLay dataDim) (θ : Par P R) :
    (rule c true dim dataDim).dataRhs θ (trip c.lay c.dataLay nm z) = .ok [(nm, enc c.dataLay "dot_" B (c.dataRhs (Fin B) θ.1 z.2.2))] :=
  advect_single c.dataRhs hL' nm z.2.2 hd θ

theorem rule_costate (hL : c.lay.Ok) (nm : String) {n B : Nat} (z : Sys2 (Fin n) (Fin B) K K') {dim : Nat} (dataDim : Nat) (hd : DimOk c.lay dim) (θ : Par P R) :
    (rule c true dim dataDim).costateRhs θ (trip c.lay c.dataLay nm z) = .ok [(nm, enc c.lay "dot_p_" n (c.cost n θ.1 θ.2 z.1 z.2.1))] := by
  simp only [rule, if_true, readBoth_trip c hL nm z, bind, Except.bind]
  exact split_single hL nm "dot_p_" "p_" n _ z.2.1 dim hd.1 hd.2

end Rule

/-- The derivatives of a class when the parameters for state and data are `θ` and those for the costate are `θ'`. -/
noncomputable def fieldWith (c : Cls K K' P R) {n B : Nat} (θ θ' : Par P R) (z : Sys2 (Fin n) (Fin B) K K') : Sys2 (Fin n) (Fin B) K K' :=
  (c.rhs (Fin n) θ.1 z.1, c.cost n θ'.1 θ'.2 z.1 z.2.1, c.dataRhs (Fin B) θ.1 z.2.2)

/-- The configuration of an integrand of this class whose hooks do not raise exceptions. -/
structure IsCfg (c : Cls K K' P R) (dim dataDim : Nat) (cfg : Integrand.Cfg ℝ (Trip ℝ) (Par P R) (TDicts ℝ) ℝ R H D) : Prop where
  rule : cfg.rule = rule c true dim dataDim
  hooks : ∀ h a, cfg.hookFails h a = none
  transpose : cfg.transpose = false

theorem runHooks_ok {T X Par Dot : Type} (hf : H → Integrand.Args T X Par Dot D → Option Err) (h : ∀ x a, hf x a = none) (a : Integrand.Args T X Par Dot D) (l : List H) :
    (Integrand.runHooks hf a l).2 = .ok () := by
  induction l with
  | nil => rfl
  | cons x l ih =>
    unfold Integrand.runHooks
    rw [h x a]
    exact ih

/-- The parameters of an evaluation, for state and data and for the costate, in terms of the two computations. -/
def usedPars (c : Cls K K' P R) (analytic : Bool) {n B : Nat} (r : R × R) (z : Sys2 (Fin n) (Fin B) K K') : Par P R × Par P R :=
  ((c.par n r.1 z.1 z.2.1, r.1), if analytic then (c.par n r.1 z.1 z.2.1, r.1) else (c.par n r.2 z.1 z.2.1, r.2))

theorem eval_plain {c : Cls K K' P R} (hL : c.lay.Ok) (hL' : c.dataLay.Ok) {dim dataDim : Nat} (hd : DimOk c.lay dim) (hdd : DimOk c.dataLay dataDim)
    {cfg : Integrand.Cfg ℝ (Trip ℝ) (Par P R) (TDicts ℝ) ℝ R H D} (hc : IsCfg c dim dataDim cfg) (nm : String) {n B : Nat}
    (t : ℝ) (z : Sys2 (Fin n) (Fin B) K K') (s : Integrand.St ℝ (Par P R) ℝ H D × (Nat → R × R)) (hu : s.1.useRnn = false) (he : s.1.external = false) :
    ∃ s', ofIntegrand cfg t (trip c.lay c.dataLay nm z) s
        = .ok (dotTrip c.lay c.dataLay nm (fieldWith c (usedPars c cfg.analytic (s.2 0) z).1 (usedPars c cfg.analytic (s.2 0) z).2 z), s') ∧
      s'.1.useRnn = false ∧ s'.1.external = false ∧ (s'.2 = fun i => s.2 (i + 1)) ∧
      s'.1.penalty = if t = 0 then some (c.kin (usedPars c cfg.analytic (s.2 0) z).1.1) else s.1.penalty := by
  obtain ⟨s, rnd⟩ := s
  simp only at hu he
  have hn : (rule c true dim dataDim).nState (trip c.lay c.dataLay nm z) = 1 := rfl
  have hn' : (rule c true dim dataDim).nCostate (trip c.lay c.dataLay nm z) = 1 := rfl
  have hpen : ∀ p, ∃ s1 : Integrand.St ℝ (Par P R) ℝ H D, Integrand.updatePenalty (rule c true dim dataDim) t p s = (s1, .ok ()) ∧ s1.useRnn = false ∧ s1.external = false ∧
      s1.penalty = if t = 0 then some (c.kin p.1) else s.penalty := by
    intro p
    unfold Integrand.updatePenalty
    rw [he]
    by_cases ht : t = 0
    · rw [if_pos ht, if_pos ht]
      exact ⟨_, rfl, hu, rfl, rfl⟩
    · rw [if_neg ht, if_neg ht]
      exact ⟨s, rfl, hu, he, rfl⟩
  have hch : ∀ r, Integrand.chooseParams (rule c true dim dataDim) t (trip c.lay c.dataLay nm z) r s = (s, .ok (c.par n r z.1 z.2.1, r)) := by
    intro r
    unfold Integrand.chooseParams
    rw [hu]
    simp only [Bool.false_eq_true, if_false, rule_compute c hL nm z]
  have hla : ∀ r (s1 : Integrand.St ℝ (Par P R) ℝ H D), s1.useRnn = false →
      Integrand.lagrangianParams (rule c true dim dataDim) (trip c.lay c.dataLay nm z) r s1 = (s1, .ok (c.par n r z.1 z.2.1, r)) := by
    intro r s1 h1
    unfold Integrand.lagrangianParams
    rw [h1]
    simp only [Bool.false_eq_true, if_false, rule_compute c hL nm z]
  obtain ⟨s1, hp1, hu1, he1, hk1⟩ := hpen (c.par n (rnd 0).1 z.1 z.2.1, (rnd 0).1)
  have hgrad : ∃ o : Integrand.Out (Par P R) (TDicts ℝ), (if cfg.analytic then Integrand.gradientsAnalytic cfg.rule t (trip c.lay c.dataLay nm z) (rnd 0).1 s
        else Integrand.gradientsAutodiff cfg.rule t (trip c.lay c.dataLay nm z) (rnd 0) s) = (s1, .ok o) ∧
      (o.dotState, o.dotCostate, o.dotData) = dotTrip c.lay c.dataLay nm (fieldWith c (usedPars c cfg.analytic (rnd 0) z).1 (usedPars c cfg.analytic (rnd 0) z).2 z) := by
    rw [hc.rule]
    cases ha : cfg.analytic with
    | true =>
      rw [if_pos rfl]
      unfold Integrand.gradientsAnalytic
      rw [hn, hn', if_neg (by simp), hch]
      simp only [hp1, rule_state c hL nm z _ hd, rule_data c hL' nm z _ hdd, rule_costate c hL nm z _ hd, bind, Except.bind]
      exact ⟨_, rfl, rfl⟩
    | false =>
      rw [if_neg (by simp)]
      unfold Integrand.gradientsAutodiff
      rw [hch]
      simp only [hp1, rule_state c hL nm z _ hd, rule_data c hL' nm z _ hdd]
      unfold Integrand.costateAutodiff
      rw [hla _ _ hu1]
      simp only [rule_costate c hL nm z _ hd, bind, Except.bind]
      exact ⟨_, rfl, rfl⟩
  obtain ⟨o, ho, hoe⟩ := hgrad
  have hfw : ∃ cs, Integrand.forward cfg.rule cfg.hookFails cfg.analytic cfg.transpose t (trip c.lay c.dataLay nm z) (rnd 0) s = (s1, cs, .ok o) := by
    unfold Integrand.forward
    rw [hc.transpose, if_neg (by simp)]
    unfold Integrand.gradients
    rw [ho]
    have := runHooks_ok cfg.hookFails hc.hooks ⟨t, trip c.lay c.dataLay nm z, o.dotState, o.dotCostate, o.dotData, o.params, s1.custom⟩ (s1.hooks.map Prod.snd)
    simp only
    rcases hr : Integrand.runHooks cfg.hookFails ⟨t, trip c.lay c.dataLay nm z, o.dotState, o.dotCostate, o.dotData, o.params, s1.custom⟩ (s1.hooks.map Prod.snd) with ⟨cs, res⟩
    rw [hr] at this
    simp only at this
    rw [this]
    exact ⟨cs, rfl⟩
  obtain ⟨cs, hfw⟩ := hfw
  refine ⟨(s1, fun i => rnd (i + 1)), ?_, hu1, he1, rfl, hk1⟩
  unfold ofIntegrand
  simp only [hfw]
  rw [← hoe]

/-- RNN mode once the parameters are cached. -/
theorem eval_cached {c : Cls K K' P R} (hL : c.lay.Ok) (hL' : c.dataLay.Ok) {dim dataDim : Nat} (hd : DimOk c.lay dim) (hdd : DimOk c.dataLay dataDim)
    {cfg : Integrand.Cfg ℝ (Trip ℝ) (Par P R) (TDicts ℝ) ℝ R H D} (hc : IsCfg c dim dataDim cfg) (nm : String) {n B : Nat}
    (t : ℝ) (z : Sys2 (Fin n) (Fin B) K K') (s : Integrand.St ℝ (Par P R) ℝ H D × (Nat → R × R)) (hu : s.1.useRnn = true) (he : s.1.external = false)
    (θ : Par P R) (hθ : s.1.cache = some θ ∨ s.1.cache = none ∧ θ = (c.par n (s.2 0).1 z.1 z.2.1, (s.2 0).1)) :
    ∃ s', ofIntegrand cfg t (trip c.lay c.dataLay nm z) s = .ok (dotTrip c.lay c.dataLay nm (fieldWith c θ θ z), s') ∧
      s'.1.useRnn = true ∧ s'.1.external = false ∧ s'.1.cache = some θ ∧ s'.1.penalty = if t = 0 then some (c.kin θ.1) else s.1.penalty := by
  obtain ⟨s, rnd⟩ := s
  simp only at hu he hθ
  have hn : (rule c true dim dataDim).nState (trip c.lay c.dataLay nm z) = 1 := rfl
  have hn' : (rule c true dim dataDim).nCostate (trip c.lay c.dataLay nm z) = 1 := rfl
  obtain ⟨s0, hch, hu0, he0, hc0, hk0⟩ : ∃ s0 : Integrand.St ℝ (Par P R) ℝ H D, Integrand.chooseParams (rule c true dim dataDim) t (trip c.lay c.dataLay nm z) (rnd 0).1 s = (s0, .ok θ) ∧
      s0.useRnn = true ∧ s0.external = false ∧ s0.cache = some θ ∧ s0.penalty = s.penalty := by
    unfold Integrand.chooseParams
    rw [if_pos hu, he, if_neg (by simp)]
    rcases hθ with h | ⟨h, rfl⟩
    · rw [h]
      exact ⟨s, rfl, hu, he, h, rfl⟩
    · rw [h]
      simp only [rule_compute c hL nm z]
      exact ⟨_, rfl, hu, rfl, rfl, rfl⟩
  obtain ⟨s1, hp1, hu1, he1, hc1, hk1⟩ : ∃ s1 : Integrand.St ℝ (Par P R) ℝ H D, Integrand.updatePenalty (rule c true dim dataDim) t θ s0 = (s1, .ok ()) ∧
      s1.useRnn = true ∧ s1.external = false ∧ s1.cache = some θ ∧ s1.penalty = if t = 0 then some (c.kin θ.1) else s.penalty := by
    unfold Integrand.updatePenalty
    rw [he0]
    by_cases ht : t = 0
    · rw [if_pos ht, if_pos ht]
      exact ⟨_, rfl, hu0, rfl, hc0, rfl⟩
    · rw [if_neg ht, if_neg ht]
      exact ⟨s0, rfl, hu0, he0, hc0, hk0⟩
  have hla : Integrand.lagrangianParams (rule c true dim dataDim) (trip c.lay c.dataLay nm z) (rnd 0).2 s1 = (s1, .ok θ) := by
    unfold Integrand.lagrangianParams
    rw [if_pos hu1, he1, if_neg (by simp), hc1]
  have hgrad : ∃ o : Integrand.Out (Par P R) (TDicts ℝ), (if cfg.analytic then Integrand.gradientsAnalytic cfg.rule t (trip c.lay c.dataLay nm z) (rnd 0).1 s
        else Integrand.gradientsAutodiff cfg.rule t (trip c.lay c.dataLay nm z) (rnd 0) s) = (s1, .ok o) ∧
      (o.dotState, o.dotCostate, o.dotData) = dotTrip c.lay c.dataLay nm (fieldWith c θ θ z) := by
    rw [hc.rule]
    cases ha : cfg.analytic with
    | true =>
      rw [if_pos rfl]
      unfold Integrand.gradientsAnalytic
      rw [hn, hn', if_neg (by simp), hch]
      simp only [hp1, rule_state c hL nm z _ hd, rule_data c hL' nm z _ hdd, rule_costate c hL nm z _ hd, bind, Except.bind]
      exact ⟨_, rfl, rfl⟩
    | false =>
      rw [if_neg (by simp)]
      unfold Integrand.gradientsAutodiff
      rw [hch]
      simp only [hp1, rule_state c hL nm z _ hd, rule_data c hL' nm z _ hdd]
      unfold Integrand.costateAutodiff
      rw [hla]
      simp only [rule_costate c hL nm z _ hd, bind, Except.bind]
      exact ⟨_, rfl, rfl⟩
  obtain ⟨o, ho, hoe⟩ := hgrad
  have hfw : ∃ cs, Integrand.forward cfg.rule cfg.hookFails cfg.analytic cfg.transpose t (trip c.lay c.dataLay nm z) (rnd 0) s = (s1, cs, .ok o) := by
    unfold Integrand.forward
    rw [hc.transpose, if_neg (by simp)]
    unfold Integrand.gradients
    rw [ho]
    have := runHooks_ok cfg.hookFails hc.hooks ⟨t, trip c.lay c.dataLay nm z, o.dotState, o.dotCostate, o.dotData, o.params, s1.custom⟩ (s1.hooks.map Prod.snd)
    simp only
    rcases hr : Integrand.runHooks cfg.hookFails ⟨t, trip c.lay c.dataLay nm z, o.dotState, o.dotCostate, o.dotData, o.params, s1.custom⟩ (s1.hooks.map Prod.snd) with ⟨cs, res⟩
    rw [hr] at this
    simp only at this
    rw [this]
    exact ⟨cs, rfl⟩
  obtain ⟨cs, hfw⟩ := hfw
  refine ⟨(s1, fun i => rnd (i + 1)), ?_, hu1, he1, hc1, hk1⟩
  unfold ofIntegrand
  simp only [hfw]
  rw [← hoe]

end Verif.Whole
