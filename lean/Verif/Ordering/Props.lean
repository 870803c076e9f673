import Verif.Ordering.Spec
import Verif.Converge.Forward
import Verif.Descent.Model
import Mathlib.Topology.Order.Compact

/-!
# C102: a network without additional dimensions keeps the order of numbers
-/

set_option linter.unusedSectionVars false

namespace Verif.Ordering
open Set Verif Verif.Tensor Verif.Shooting Verif.Evolution Verif.Models Verif.Converge Verif.Whole Verif.Assembly Verif.Flow

variable {ι β K K' P H D Θ Rb : Type} [Fintype ι] [Fintype β] [Fintype K] [Fintype K'] [Fintype P]

/-! ## Exact solutions -/

theorem continuous_data {fld : ℝ → Sys2 ι β K K' → Sys2 ι β K K'} {a b : ℝ} {y : ℝ → Sys2 ι β K K'} (hy : Solves fld a b y) (k : β × K') : ContinuousOn (fun τ => (y τ).2.2 k) (Icc a b) := by
  intro τ hτ
  have h1 : ContinuousWithinAt y (Icc a b) τ := (hy τ hτ).continuousWithinAt
  exact ((continuous_apply k).comp (continuous_snd.comp continuous_snd)).continuousAt.comp_continuousWithinAt h1

/-- Numbers that never meet keep their order. -/
theorem order_of_apart {u v : ℝ → ℝ} {a b : ℝ} (hu : ContinuousOn u (Icc a b)) (hv : ContinuousOn v (Icc a b)) (hne : ∀ τ ∈ Icc a b, u τ ≠ v τ) {t : ℝ} (ht : t ∈ Icc a b) (h : u t < v t) :
    ∀ τ ∈ Icc a b, u τ < v τ := by
  intro τ hτ
  by_contra hc
  have hc : v τ ≤ u τ := not_lt.1 hc
  have hs : uIcc t τ ⊆ Icc a b := uIcc_subset_Icc ht hτ
  have hi := intermediate_value_uIcc ((hv.sub hu).mono hs)
  have h0 : (0 : ℝ) ∈ uIcc ((v - u) t) ((v - u) τ) := by
    rw [mem_uIcc]
    right
    simp only [Pi.sub_apply]
    constructor <;> linarith
  obtain ⟨r, hr, hr0⟩ := hi h0
  exact hne r (hs hr) (by simp only [Pi.sub_apply] at hr0; linarith)

/-- C102: when samples are single numbers and nothing is added to them, the exact network keeps their order: a sample below another at one time is below it at all times, whatever the particles, costates and
weights. -/
theorem C102_order [Nonempty ι] [Subsingleton K'] {f : Class K P} (hf : Regular f) {g : Class K' P} (hg : Regular g) (hrow : Rowwise g) (w : P → Option ℝ) (hw : ∀ r, weight w r ≠ 0) (ρ : ℝ → (P → ℝ) × (P → ℝ)) {a b : ℝ}
    {y : ℝ → Sys2 ι β K K'} (hy : Solves (Evolution.field2 f g (Evolution.autodiff f w ρ)) a b y) (s s' : β) (k : K') {t : ℝ} (ht : t ∈ Icc a b) (h : (y t).2.2 (s, k) < (y t).2.2 (s', k)) :
    ∀ τ ∈ Icc a b, (y τ).2.2 (s, k) < (y τ).2.2 (s', k) := by
  refine order_of_apart (continuous_data hy (s, k)) (continuous_data hy (s', k)) (fun τ hτ e => ?_) ht h
  exact h.ne (C69_samples hf hg hrow w hw ρ hy s s' hτ (fun k' => by rw [Subsingleton.elim k' k]; exact e) t ht k)

/-- C102 for given parameters (RNN mode, external parameters). -/
theorem C102_order_given [Nonempty ι] [Subsingleton K'] {f : Class K P} (hf : Regular f) {g : Class K' P} (hg : Regular g) (hrow : Rowwise g) (w : P → Option ℝ) {θ : ℝ → P → ℝ} (hθ : ContDiff ℝ 1 θ) {a b : ℝ}
    {y : ℝ → Sys2 ι β K K'} (hy : Solves (Evolution.field2 f g (Evolution.given f w θ)) a b y) (s s' : β) (k : K') {t : ℝ} (ht : t ∈ Icc a b) (h : (y t).2.2 (s, k) < (y t).2.2 (s', k)) :
    ∀ τ ∈ Icc a b, (y τ).2.2 (s, k) < (y τ).2.2 (s', k) := by
  refine order_of_apart (continuous_data hy (s, k)) (continuous_data hy (s', k)) (fun τ hτ e => ?_) ht h
  have hC := contDiff_given (ι := ι) (β := Unit) (n := 1) (hf.linear ι).affine (smooth_one hf ι) (hg.linear Unit).affine (smooth_one hg Unit).less w hθ
  have e' : Evolution.select (fun _ : Unit => s) (y τ) = Evolution.select (fun _ : Unit => s') (y τ) :=
    Prod.ext rfl (Prod.ext rfl (funext fun k' => by rw [Subsingleton.elim k' ((), k)]; exact e))
  have := C69_backwards hC (hy.select hrow fun _ : Unit => s) (hy.select hrow fun _ : Unit => s') hτ e' t ht
  exact h.ne (congrArg (fun z : Sys2 ι Unit K K' => z.2.2 ((), k)) this)

/-! ## Forward passes -/

theorem exists_pos_le {J : Type} [Finite J] (d : J → ℝ) (h : ∀ j, 0 < d j) : ∃ δ, 0 < δ ∧ ∀ j, δ ≤ d j := by
  rcases isEmpty_or_nonempty J with hJ | hJ
  · exact ⟨1, one_pos, fun j => (hJ.false j).elim⟩
  · obtain ⟨j, hj⟩ := Finite.exists_min d
    exact ⟨d j, h j, hj⟩

/-- Finitely many samples in a fixed order keep a distance. -/
theorem gap {a b : ℝ} (hab : a ≤ b) {B : Nat} {u : Fin B → ℝ → ℝ} (hu : ∀ s, ContinuousOn (u s) (Icc a b)) (h : ∀ s s', u s a < u s' a → ∀ τ ∈ Icc a b, u s τ < u s' τ) :
    ∃ δ, 0 < δ ∧ ∀ s s', u s a < u s' a → ∀ τ ∈ Icc a b, δ ≤ u s' τ - u s τ := by
  have key : ∀ j : { j : Fin B × Fin B // u j.1 a < u j.2 a }, ∃ δ, 0 < δ ∧ ∀ τ ∈ Icc a b, δ ≤ u j.1.2 τ - u j.1.1 τ := by
    rintro ⟨⟨s, s'⟩, hj⟩
    obtain ⟨τ, hτ, hmin⟩ := isCompact_Icc.exists_isMinOn ⟨a, left_mem_Icc.2 hab⟩ ((hu s').sub (hu s))
    refine ⟨u s' τ - u s τ, sub_pos.2 (h s s' hj τ hτ), fun τ' hτ' => ?_⟩
    have := hmin hτ'
    simpa using this
  choose d hd hd' using key
  obtain ⟨δ, h0, hδ⟩ := exists_pos_le d hd
  exact ⟨δ, h0, fun s s' hs τ hτ => (hδ ⟨(s, s'), hs⟩).trans (hd' ⟨(s, s'), hs⟩ τ hτ)⟩

/-- What a forward pass returns when it returns something, for samples that are single numbers. -/
theorem report_shape (L : Lay K) (nm key : String) {n B : Nat} (s : Block.St ℝ ℝ Θ) (w : Block.When ℝ) {ys : Py (List (Sys2 (Fin n) (Fin B) K (Fin 1 × Fin 1)))} {a : ℝ} {ts : List ℝ} (hw : w.times = a :: ts)
    (hys : ∀ l, ys = .ok l → l.length = (a :: ts).length) {o : Block.Out ℝ}
    (ho : (report L (layOne 1 1) nm key [1, 1] s w ys).2 = .ok o) {t : Tensor ℝ} (ht : o.result = .tensor t) :
    t.WF ∧ (match w with | .upTo _ => t.shape = [B, 1, 1] | .vector v => t.shape = [v.length, B, 1, 1]) := by
  cases ys with
  | error e => cases ho
  | ok l =>
    cases w with
    | upTo e =>
      cases hl : l.getLast? with
      | none => simp only [report, hl] at ho; cases ho
      | some y =>
        simp only [report, hl] at ho
        cases ho
        cases ht
        exact ⟨tab_wf _ _, rfl⟩
    | vector v =>
      have hv : v = a :: ts := hw
      simp only [report] at ho
      cases ho
      cases ht
      refine ⟨tab_wf _ _, ?_⟩
      show [l.length, B, 1, 1] = _
      rw [hys l rfl, hv]

/-- Close to a solution in which the samples keep their distance, the order is kept. -/
theorem keeps_of_near {L : Lay K} {nm key : String} (hk : key = "q1") {n B : Nat} {s : Block.St ℝ ℝ Θ} {w : Block.When ℝ} {a b : ℝ} {ts : List ℝ} (hw : w.times = a :: ts) (hinc : (a :: ts).Pairwise (· < ·))
    (hb : ∀ τ ∈ a :: ts, τ ≤ b) {y : ℝ → Sys2 (Fin n) (Fin B) K (Fin 1 × Fin 1)} {ys : List (Sys2 (Fin n) (Fin B) K (Fin 1 × Fin 1))} {ε δ : ℝ} (hε : 2 * ε < δ)
    (hδ : ∀ s s', (y a).2.2 (s, 0, 0) < (y a).2.2 (s', 0, 0) → ∀ τ ∈ Icc a b, δ ≤ (y τ).2.2 (s', 0, 0) - (y τ).2.2 (s, 0, 0))
    (h : List.Forall₂ (fun Y τ => ‖Y - y τ‖ ≤ ε) ys (a :: ts)) :
    ∃ o t, (report L (layOne 1 1) nm key [1, 1] s w (.ok ys)).2 = .ok o ∧ o.result = .tensor t ∧ Keeps (fun s => (y a).2.2 (s, 0, 0)) t w := by
  subst hk
  obtain ⟨o, t, h1, h2, h3⟩ := report_near L (layOne_ok 1 1) nm (List.mem_singleton.2 rfl : ("q1", [1, 1]) ∈ (layOne 1 1).names) s w hw h
  refine ⟨o, t, h1, h2, ?_⟩
  obtain ⟨h4, h5⟩ := report_shape L nm "q1" s w hw (fun l hl => by cases hl; exact h.length_eq) h1 h2
  have hτ : ∀ τ ∈ a :: ts, τ ∈ Icc a b := fun τ hm => ⟨by
    rcases List.mem_cons.1 hm with rfl | hm
    · exact le_rfl
    · exact ((List.pairwise_cons.1 hinc).1 τ hm).le, hb τ hm⟩
  cases w with
  | upTo e =>
    refine ⟨h4, h5, fun s s' hs => ?_⟩
    obtain ⟨v, g1, g2⟩ := h3 s (0, 0) rfl
    obtain ⟨v', g1', g2'⟩ := h3 s' (0, 0) rfl
    refine ⟨v, v', g1, g1', ?_⟩
    have := hδ s s' hs e (hτ e (by rw [← hw]; simp [Block.When.times]))
    have g2 := (abs_le.1 g2).2
    have g2' := (abs_le.1 g2').1
    linarith
  | vector vs =>
    refine ⟨h4, h5, fun i hi s s' hs => ?_⟩
    obtain ⟨v, g1, g2⟩ := h3 i hi s (0, 0) rfl
    obtain ⟨v', g1', g2'⟩ := h3 i hi s' (0, 0) rfl
    refine ⟨v, v', g1, g1', ?_⟩
    have hv : vs = a :: ts := hw
    have := hδ s s' hs vs[i] (hτ _ (by rw [← hv]; exact List.getElem_mem hi))
    have g2 := (abs_le.1 g2).2
    have g2' := (abs_le.1 g2').1
    linarith

theorem small_step {C h₀ δ : ℝ} (hC : 0 ≤ C) (h0 : 0 < h₀) (hδ : 0 < δ) : ∃ h₁, 0 < h₁ ∧ h₁ ≤ h₀ ∧ ∀ h, h ≤ h₁ → 2 * (C * h) < δ := by
  refine ⟨min h₀ (δ / (2 * (C + 1)) / 2), by positivity, min_le_left _ _, fun h hh => ?_⟩
  have h1 : h ≤ δ / (2 * (C + 1)) / 2 := hh.trans (min_le_right _ _)
  have h2 : C * h ≤ C * (δ / (2 * (C + 1)) / 2) := mul_le_mul_of_nonneg_left h1 hC
  have h3 : C * (δ / (2 * (C + 1)) / 2) * 2 ≤ δ / 2 := by
    have : C * (δ / (2 * (C + 1)) / 2) * 2 = δ / 2 * (C / (C + 1)) := by field_simp
    rw [this]
    exact mul_le_of_le_one_right (by positivity) ((div_le_one (by linarith)).2 (by linarith))
  linarith

/-- C102 for forward passes: for all particles, costates, batches of single numbers and weights there is a step size such that with a fixed-step method and steps that are not longer the predictions are in the
order of the samples, at all requested times. -/
theorem C102_forward {L : Lay K} (hL : L.Ok) {f : Class K P} (hf : Regular f) {g : Class (Fin 1 × Fin 1) P} (hg : Regular g) (hrow : Rowwise g) (wt : P → Option ℝ) (hw : ∀ r, 0 < weight wt r) {n B : Nat} (hn : 0 < n)
    (q p : Fin n × K → ℝ) (x : Fin B → ℝ) {T : Tableau} (hT : T.Consistent) {a b : ℝ} (hab : a ≤ b) :
    ∃ h₀ : ℝ, 0 < h₀ ∧ ∀ h, 0 < h → h ≤ h₀ → ∀ (G : List ℝ → List ℝ)
      (icfg : Θ → Nat → Integrand.Cfg ℝ (Trip ℝ) (Par P (P → ℝ)) (Concat.TDicts ℝ) ℝ (P → ℝ) H D) (s0 : Integrand.St ℝ (Par P (P → ℝ)) ℝ H D × (Nat → (P → ℝ) × (P → ℝ)))
      (cfg : Block.Cfg ℝ ℝ Θ Rb),
      IsBlock ((autodiffCls L f wt).withData (layOne 1 1) g) (solver T G) icfg s0 cfg → s0.1.useRnn = false → s0.1.external = false →
      ∀ (s : Block.St ℝ ℝ Θ), DimOk (layOne 1 1) s.dataDim → ∀ (w : Block.When ℝ) (ts : List ℝ), Block.Is s w → w.times = a :: ts →
      (a :: ts).Pairwise (· < ·) → (∀ τ ∈ a :: ts, τ ≤ b) → Suits h G a ts →
      s.state = some (enc L "" n q) → s.costate = some (enc L "p_" n p) →
      ∀ X : Tensor ℝ, cfg.initialData X = .ok (enc (layOne 1 1) "" B fun j => x j.1) → ∀ r,
      ∃ o t, (Block.forward cfg r ⟨some X, none, none, none⟩ s).2 = .ok o ∧ o.result = .tensor t ∧ Keeps x t w := by
  have : Nonempty (Fin n) := ⟨⟨0, hn⟩⟩
  obtain ⟨y, hy, hya, _⟩ := C69_global_sizes (β := Fin B) hf hg wt hw (fun _ => (0, 0)) hab (q, p, fun j => x j.1)
  have hC := contDiff_autodiff (ι := Fin n) (β := Fin B) (n := 1) (hf.linear _).affine (smooth_one hf _) (hg.linear _).affine (smooth_one hg _).less wt (fun r => (hw r).ne') fun _ => (0, 0)
  obtain ⟨δ, hδ0, hδ⟩ := gap hab (u := fun s τ => (y τ).2.2 (s, 0, 0)) (fun s => continuous_data hy _) fun s s' hs =>
    C102_order hf hg hrow wt (fun r => (hw r).ne') _ hy s s' (0, 0) (left_mem_Icc.2 hab) hs
  obtain ⟨C, h₀, h1, h2, key⟩ := C68_converge hC hT hy
  obtain ⟨h₁, k1, k2, k3⟩ := small_step h1 h2 hδ0
  refine ⟨h₁, k1, fun h hh hle G icfg s0 cfg hb hu he s hdd w ts hwi hwt hinc hts hgr hq hp X hX r => ?_⟩
  obtain ⟨sh, hkey⟩ := hb.key
  obtain ⟨ys, e1, e2⟩ := key h hh (hle.trans k2) G ts hinc hts hgr
  have hsh : (cfg.outKey, sh) = ("q1", [1, 1]) := List.mem_singleton.1 hkey
  obtain ⟨hk1, rfl⟩ := Prod.mk.inj hsh
  rw [C67_forward_sizes hL (layOne_ok 1 1) g (fun _ => (hf.linear _).affine) wt hb hu he hdd hwi hq hp hX hkey r fun _ => (0, 0), hwt]
  rw [hya] at e1
  rw [e1]
  have := keeps_of_near (L := L) (nm := cfg.name) (key := cfg.outKey) hk1 (s := s) hwt hinc hts (k3 h hle) hδ e2
  simpa [hya] using this

/-- C102 for forward passes in RNN mode. -/
theorem C102_forward_rnn {L : Lay K} (hL : L.Ok) {f : Class K P} (hf : Regular f) {g : Class (Fin 1 × Fin 1) P} (hg : Regular g) (hrow : Rowwise g) (wt : P → Option ℝ) {n B : Nat} (hn : 0 < n)
    (q p : Fin n × K → ℝ) (x : Fin B → ℝ) {T : Tableau} (hT : T.Consistent) {a b : ℝ} (hab : a ≤ b) :
    ∃ h₀ : ℝ, 0 < h₀ ∧ ∀ h, 0 < h → h ≤ h₀ → ∀ (G : List ℝ → List ℝ)
      (icfg : Θ → Nat → Integrand.Cfg ℝ (Trip ℝ) (Par P (P → ℝ)) (Concat.TDicts ℝ) ℝ (P → ℝ) H D) (s0 : Integrand.St ℝ (Par P (P → ℝ)) ℝ H D × (Nat → (P → ℝ) × (P → ℝ)))
      (cfg : Block.Cfg ℝ ℝ Θ Rb),
      IsBlock ((rnnCls L f wt).withData (layOne 1 1) g) (solver T G) icfg s0 cfg → s0.1.useRnn = true → s0.1.external = false → s0.1.cache = none →
      ∀ (s : Block.St ℝ ℝ Θ), DimOk (layOne 1 1) s.dataDim → ∀ (w : Block.When ℝ) (ts : List ℝ), Block.Is s w → w.times = a :: ts →
      (a :: ts).Pairwise (· < ·) → (∀ τ ∈ a :: ts, τ ≤ b) → Suits h G a ts →
      s.state = some (enc L "" n q) → s.costate = some (enc L "p_" n p) →
      ∀ X : Tensor ℝ, cfg.initialData X = .ok (enc (layOne 1 1) "" B fun j => x j.1) → ∀ r,
      ∃ o t, (Block.forward cfg r ⟨some X, none, none, none⟩ s).2 = .ok o ∧ o.result = .tensor t ∧ Keeps x t w := by
  have : Nonempty (Fin n) := ⟨⟨0, hn⟩⟩
  obtain ⟨y, hy, hya, _⟩ := C69_global_rnn_sizes (β := Fin B) hf hg wt (directParameters (f (Fin n)) wt 0 q p) hab (q, p, fun j => x j.1)
  have hc : ContDiff ℝ (1 : ℕ) fun _ : ℝ => directParameters (f (Fin n)) wt 0 q p := contDiff_const
  have hC := contDiff_given (ι := Fin n) (β := Fin B) (n := 1) (hf.linear _).affine (smooth_one hf _) (hg.linear _).affine (smooth_one hg _).less wt hc
  obtain ⟨δ, hδ0, hδ⟩ := gap hab (u := fun s τ => (y τ).2.2 (s, 0, 0)) (fun s => continuous_data hy _) fun s s' hs =>
    C102_order_given hf hg hrow wt hc hy s s' (0, 0) (left_mem_Icc.2 hab) hs
  obtain ⟨C, h₀, h1, h2, key⟩ := C68_converge hC hT hy
  obtain ⟨h₁, k1, k2, k3⟩ := small_step h1 h2 hδ0
  refine ⟨h₁, k1, fun h hh hle G icfg s0 cfg hb hu he hn s hdd w ts hwi hwt hinc hts hgr hq hp X hX r => ?_⟩
  obtain ⟨sh, hkey⟩ := hb.key
  obtain ⟨ys, e1, e2⟩ := key h hh (hle.trans k2) G ts hinc hts hgr
  have hsh : (cfg.outKey, sh) = ("q1", [1, 1]) := List.mem_singleton.1 hkey
  obtain ⟨hk1, rfl⟩ := Prod.mk.inj hsh
  rw [C67_forward_rnn (c := (rnnCls L f wt).withData (layOne 1 1) g) hL (layOne_ok 1 1) hb hu he hn hdd hwi hq hp hX hkey r (directParameters (f (Fin n)) wt 0 q p, (s0.2 0).1) ?_, hwt]
  · rw [hya] at e1
    show ∃ o t, (report L (layOne 1 1) cfg.name cfg.outKey [1, 1] s w (runSys (Evolution.field2 f g (Evolution.given f wt fun _ => directParameters (f (Fin n)) wt 0 q p))
      (solver T G (a :: ts)) [(q, p, fun j => x j.1)])).2 = .ok o ∧ _
    rw [e1]
    have := keeps_of_near (L := L) (nm := cfg.name) (key := cfg.outKey) hk1 (s := s) hwt hinc hts (k3 h hle) hδ e2
    simpa [hya] using this
  · intro z hz
    rw [firstEval_solver hT G _ _ z hz]
    exact Prod.ext (C32_independent_of_initialisation (hf.linear _).affine wt 0 (s0.2 0).1 q p) rfl

/-! ## The loss -/

/-- Predictions in the wrong order cost at least half the square of the difference. -/
theorem wrong_order {p q y z : ℝ} (h : p < q) (h' : z < y) : (y - z) ^ 2 / 2 ≤ (p - y) ^ 2 + (q - z) ^ 2 := by
  nlinarith [sq_nonneg ((p - y) + (q - z)), mul_pos (sub_pos.2 h) (sub_pos.2 h'), sq_nonneg (q - p)]

theorem two_le_sum {l : List ℝ} (h0 : ∀ v ∈ l, 0 ≤ v) {i j : Nat} (hi : i < l.length) (hj : j < l.length) (hij : i ≠ j) : l[i] + l[j] ≤ l.sum := by
  rw [← Fin.sum_univ_getElem]
  have hne : (⟨i, hi⟩ : Fin l.length) ≠ ⟨j, hj⟩ := fun e => hij (Fin.mk.inj e)
  have := Finset.sum_le_sum_of_subset_of_nonneg (f := fun k : Fin l.length => l[k.1]) (Finset.subset_univ {(⟨i, hi⟩ : Fin l.length), ⟨j, hj⟩}) (fun k _ _ => h0 _ (List.getElem_mem _))
  rwa [Finset.sum_pair hne] at this

theorem data_of_get? {B : Nat} {t : Tensor ℝ} (hs : t.shape = [B, 1, 1]) (s : Fin B) {v : ℝ} (h : t.get? [s.1, 0, 0] = some v) : t.data[s.1]? = some v := by
  unfold Tensor.get? at h
  rw [hs] at h
  simpa [getData?, vol, List.getElem?_take] using h

/-- C102: with predictions in the order of the samples, targets in another order are out of reach: the loss is at least the weight of the similarity times the square of the difference of two targets in the wrong
order, over twice the number of samples. -/
theorem C102_loss {B : Nat} {x : Fin B → ℝ} {t : Tensor ℝ} {e : ℝ} (hk : Keeps x t (.upTo e)) {o : Block.Out ℝ} (ho : o.result = .tensor t) {target : List ℝ} (hlen : target.length = B) {i j : Fin B} (hx : x i < x j)
    (ht : target[j.1]'(by omega) < target[i.1]'(by omega)) (np : Bool) {sw nw k : ℝ} (hsw : 0 ≤ sw) (hnw : 0 ≤ nw) (hpk : 0 ≤ k) :
    ∃ l, Descent.lossOf np sw nw target (.ok o) (.ok (some k)) = .ok l ∧ sw * ((target[i.1]'(by omega) - target[j.1]'(by omega)) ^ 2 / (2 * B)) ≤ l := by
  obtain ⟨h1, h2, h3⟩ := hk
  obtain ⟨v, v', g1, g2, g3⟩ := h3 i j hx
  have d1 := data_of_get? h2 i g1
  have d2 := data_of_get? h2 j g2
  have hB : (0 : ℝ) < B := by exact_mod_cast Fin.pos i
  have hl : t.data.length = B := by
    have := h1
    unfold Tensor.WF at this
    rw [h2] at this
    simpa [vol] using this
  refine ⟨(Training.functionalLoss true np sw nw t.data target k).loss, by
    obtain ⟨res, _, _, _⟩ := o
    obtain rfl : res = .tensor t := ho
    rfl, ?_⟩
  have hm : (target[i.1]'(by omega) - target[j.1]'(by omega)) ^ 2 / (2 * B) ≤ Training.mean (List.zipWith (fun p y => (p - y) ^ 2) t.data target) := by
    have hzl : (List.zipWith (fun p y : ℝ => (p - y) ^ 2) t.data target).length = B := by simp [hl, hlen]
    have hs := two_le_sum (l := List.zipWith (fun p y : ℝ => (p - y) ^ 2) t.data target) (i := i.1) (j := j.1)
      (by
        intro v hv
        obtain ⟨m, hm, rfl⟩ := List.getElem_of_mem hv
        rw [List.getElem_zipWith]
        positivity) (by omega) (by omega) (fun e => by
          have : i = j := Fin.ext e
          subst this
          exact lt_irrefl _ hx)
    have e1 : t.data[i.1]'(by omega) = v := by
      rw [List.getElem?_eq_getElem (by omega)] at d1
      exact Option.some.inj d1
    have e2 : t.data[j.1]'(by omega) = v' := by
      rw [List.getElem?_eq_getElem (by omega)] at d2
      exact Option.some.inj d2
    rw [List.getElem_zipWith, List.getElem_zipWith, e1, e2] at hs
    unfold Training.mean
    rw [hzl, div_le_div_iff₀ (by positivity) hB]
    have := wrong_order g3 ht
    nlinarith
  have hn : 0 ≤ nw * k := mul_nonneg hnw hpk
  have hm' := mul_le_mul_of_nonneg_left hm hsw
  unfold Training.functionalLoss
  cases np <;> simp <;> linarith

end Verif.Ordering
