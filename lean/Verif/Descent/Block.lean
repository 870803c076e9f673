import Verif.Descent.Props

/-!
# C101 for a shooting block and the loss of the demo
-/

namespace Verif.Descent
open Verif Verif.Tensor Verif.Gradcheck Verif.Whole Verif.Shooting Verif.Evolution Verif.Converge Verif.Assembly Verif.Flow Verif.Models

variable {K K' P R H D Θ Rb : Type}

section
variable {V : Type} [NormedAddCommGroup V] [NormedSpace ℝ V]

theorem differentiableAt_squares {F : V → List Nat → ℝ} {v : V} (hF : ∀ idx, DifferentiableAt ℝ (fun v => F v idx) v) (l : List (List Nat)) (target : List ℝ) :
    DifferentiableAt ℝ (fun v => (List.zipWith (fun p y => (p - y) ^ 2) (l.map (F v)) target).sum) v := by
  induction l generalizing target with
  | nil => exact differentiableAt_const _
  | cons idx l ih =>
    cases target with
    | nil => exact differentiableAt_const _
    | cons y target =>
      simp only [List.map_cons, List.zipWith_cons_cons, List.sum_cons]
      exact (((hF idx).sub_const y).pow 2).add (ih target)

theorem differentiableAt_demo {F : V → List Nat → ℝ} {v : V} (hF : ∀ idx, DifferentiableAt ℝ (fun v => F v idx) v) (sh : List Nat) (np : Bool) (sw nw : ℝ) (target : List ℝ) {k : V → ℝ} (hk : DifferentiableAt ℝ k v) :
    DifferentiableAt ℝ (fun v => (Training.functionalLoss true np sw nw (tab sh (F v)).data target (k v)).loss) v := by
  have h1 : DifferentiableAt ℝ (fun v => sw * Training.mean (List.zipWith (fun p y => (p - y) ^ 2) (tab sh (F v)).data target)) v := by
    simp only [Training.mean, tab, tabData_eq, List.length_zipWith, List.length_map, div_eq_mul_inv]
    exact ((differentiableAt_squares hF (indices sh) target).mul_const _).const_mul sw
  cases np with
  | true =>
    simp only [Training.functionalLoss, if_true]
    exact h1.add (differentiableAt_const _)
  | false =>
    simp only [Training.functionalLoss, if_true, Bool.false_eq_true, if_false]
    exact h1.add (hk.const_mul nw)

/-- The loss of a pass whose values and whose penalty are differentiable functions of something. -/
theorem demo_report [Fintype K] [Fintype K'] (L : Lay K) (L' : Lay K') (nm key : String) (sh : List Nat) {n B : Nat} (w : Block.When ℝ) {v : V} {us : List (V → Sys2 (Fin n) (Fin B) K K')} (hne : us ≠ [])
    (hu : ∀ u ∈ us, DifferentiableAt ℝ u v) {k : V → ℝ} (hk : DifferentiableAt ℝ k v) (s : V → Block.St ℝ ℝ Θ) (np : Bool) (sw nw : ℝ) (target : List ℝ) :
    ∃ ℓ : V → ℝ, DifferentiableAt ℝ ℓ v ∧ ∀ v, lossOf np sw nw target (report L L' nm key sh (s v) w (.ok (us.map fun u => u v))).2 (.ok (some (k v))) = .ok (ℓ v) := by
  cases w with
  | upTo t =>
    obtain ⟨u, hl⟩ : ∃ u, us.getLast? = some u := ⟨_, List.getLast?_eq_some_getLast hne⟩
    have hd := hu u (List.mem_of_getLast? hl)
    refine ⟨_, differentiableAt_demo (F := fun v => value L' B (u v).2.2 key) (fun idx => differentiableAt_value L' (hd.snd.snd) key idx) (B :: sh) np sw nw target hk, fun v => ?_⟩
    unfold report
    simp only [List.getLast?_map, hl, Option.map_some]
    rfl
  | vector ts =>
    refine ⟨_, differentiableAt_demo (F := fun v idx => (((us.map fun u => u v)[idx.headD 0]?).map fun y => value L' B y.2.2 key idx.tail).getD 0) ?_ (us.length :: B :: sh) np sw nw target hk, fun v => ?_⟩
    · intro idx
      simp only [List.getElem?_map]
      cases he : us[idx.headD 0]? with
      | none => exact differentiableAt_const _
      | some u => exact differentiableAt_value L' (hu u (List.mem_of_getElem? he)).snd.snd key _
    · unfold report lossOf
      simp only [outTimes, List.length_map]
      rfl

end

section
variable [Fintype K] [Fintype P] {L : Lay K} {f : Evolution.Class K P} {wt : P → Option ℝ}

/-- C101: with a differentiable nonlinearity and a fixed-grid method, the loss of the demo is defined for all particles and costates and is a differentiable function of them. -/
theorem C101_loss (hL : L.Ok) (ha : ∀ (κ : Type) [Fintype κ], AffineInParams (f κ)) (hs : ∀ (κ : Type) [Fintype κ], SmoothRhs (1 + 1) (f κ)) (hwt : ∀ r, weight wt r ≠ 0) {n B : Nat} (hn : 0 < n) {T : Tableau} (hT : Explicit T) {G : List ℝ → List ℝ}
    {icfg : Θ → Nat → Integrand.Cfg ℝ (Trip ℝ) (Par P (P → ℝ)) (TDicts ℝ) ℝ (P → ℝ) H D} {s0 : Integrand.St ℝ (Par P (P → ℝ)) ℝ H D × (Nat → (P → ℝ) × (P → ℝ))} {cfg : Block.Cfg ℝ ℝ Θ Rb}
    (hb : IsBlock (autodiffCls L f wt) (solver T G) icfg s0 cfg) (hu : s0.1.useRnn = false) (he : s0.1.external = false)
    {s : Block.St ℝ ℝ Θ} (hdd : DimOk L s.dataDim) {w : Block.When ℝ} (hw : Block.Is s w) {ts : List ℝ} (hts : w.times = 0 :: ts) (hinc : (0 :: ts).Pairwise (· < ·)) (hne : ts ≠ [])
    {h : ℝ} (hG : Suits h G 0 ts) {x : Fin B × K → ℝ} {X : Tensor ℝ} (hX : cfg.initialData X = .ok (enc L "" B x)) (r : Rb) (np : Bool) (sw nw : ℝ) (target : List ℝ) :
    ∃ ℓ : (Fin n × K → ℝ) × (Fin n × K → ℝ) → ℝ, Differentiable ℝ ℓ ∧ ∀ q p, demoLoss L (solver T G) icfg s0 cfg r np sw nw X target s q p = .ok (ℓ (q, p)) := by
  have : Nonempty (Fin n) := ⟨⟨0, hn⟩⟩
  obtain ⟨sh, hkey⟩ := hb.key
  have hC := contDiff_autodiff (ι := Fin n) (β := Fin B) (n := 1) (ha _) (hs _) (ha _) (hs _).less wt hwt fun _ => (0, 0)
  have hd : ∀ t, Differentiable ℝ fun z : Sys (Fin n) (Fin B) K => Evolution.field f (Evolution.autodiff f wt fun _ => (0, 0)) t z := fun t =>
    (hC.comp (contDiff_const.prodMk contDiff_id : ContDiff ℝ (1 : ℕ) fun z : Sys (Fin n) (Fin B) K => (t, z))).differentiable (by simp)
  have hw' : ∀ q p : Fin n × K → ℝ, Block.Is (withParams L s q p) w := fun q p => by cases w <;> exact hw
  obtain ⟨g, h1, h2, h3⟩ := hG
  have hform : ∀ q p : Fin n × K → ℝ, demoLoss L (solver T G) icfg s0 cfg r np sw nw X target s q p =
      lossOf np sw nw target (report L L cfg.name cfg.outKey sh (withParams L s q p) w (.ok ((q, p, x) :: outputs (increment T (Evolution.field f (Evolution.autodiff f wt fun _ => (0, 0)))) 0 (q, p, x) g ts))).2
        (.ok (some (kineticEnergy wt (directParameters (f (Fin n)) wt 0 q p)))) := by
    intro q p
    unfold demoLoss
    rw [C67_forward_autodiff hL (fun _ => (ha _)) wt hb hu he (s := withParams L s q p) hdd (hw' q p) rfl rfl hX hkey r fun _ => (0, 0),
      C93_penalty_initial (c := autodiffCls L f wt) hL hL (indep_autodiff L (fun _ => (ha _)) wt) hT hb hu he (s := withParams L s q p) hdd (hw' q p) hts hinc hne ⟨g, h1, h2, h3⟩
        (q := q) (p := p) rfl rfl hX r 0, hts, show Evolution.field f (Evolution.autodiff f wt fun _ => (0, 0)) = Evolution.field2 f f (Evolution.autodiff f wt fun _ => (0, 0)) from rfl,
      run_solver _ T G 0 ts g _ ((increasing_iff _).2 hinc) h1 h2]
    rfl
  have key : ∀ v : (Fin n × K → ℝ) × (Fin n × K → ℝ), ∃ ℓ : (Fin n × K → ℝ) × (Fin n × K → ℝ) → ℝ, DifferentiableAt ℝ ℓ v ∧ ∀ v, demoLoss L (solver T G) icfg s0 cfg r np sw nw X target s v.1 v.2 = .ok (ℓ v) := by
    intro v
    have hu0 : DifferentiableAt ℝ (fun v : (Fin n × K → ℝ) × (Fin n × K → ℝ) => ((v.1, v.2, x) : Sys (Fin n) (Fin B) K)) v :=
      differentiableAt_fst.prodMk (differentiableAt_snd.prodMk (differentiableAt_const x))
    obtain ⟨us, e1, e2⟩ := Backprop.follows_outputs hd T g 0 (u := fun v : (Fin n × K → ℝ) × (Fin n × K → ℝ) => ((v.1, v.2, x) : Sys (Fin n) (Fin B) K)) (p := (_, _)) ⟨rfl, hu0.hasFDerivAt⟩ ts
    have hus : ∀ u ∈ (fun v : (Fin n × K → ℝ) × (Fin n × K → ℝ) => ((v.1, v.2, x) : Sys (Fin n) (Fin B) K)) :: us, DifferentiableAt ℝ u v := by
      intro u hm
      rcases List.mem_cons.1 hm with rfl | hm
      · exact hu0
      · obtain ⟨i, hi, rfl⟩ := List.getElem_of_mem hm
        have := (List.forall₂_iff_get.1 e1).2 i hi (by rw [← e1.length_eq]; exact hi)
        exact this.2.differentiableAt
    have hk : DifferentiableAt ℝ (fun v : (Fin n × K → ℝ) × (Fin n × K → ℝ) => kineticEnergy wt (directParameters (f (Fin n)) wt 0 v.1 v.2)) v := by
      have hθ : ContDiff ℝ (1 : ℕ) fun v : (Fin n × K → ℝ) × (Fin n × K → ℝ) => directParameters (f (Fin n)) wt 0 v.1 v.2 :=
        contDiff_directParameters (ha _) (hs _).less wt (fun _ => 0) contDiff_fst contDiff_snd
      have : (fun v : (Fin n × K → ℝ) × (Fin n × K → ℝ) => kineticEnergy wt (directParameters (f (Fin n)) wt 0 v.1 v.2)) =
          fun v => ∑ r, weight wt r / 2 * directParameters (f (Fin n)) wt 0 v.1 v.2 r ^ 2 := by
        funext v
        exact kineticEnergy_eq _ _
      rw [this]
      exact (ContDiff.sum fun r _ => contDiff_const.mul (((contDiff_pi.1 hθ) r).pow 2)).differentiable (by simp) v
    obtain ⟨ℓ, l1, l2⟩ := demo_report (Θ := Θ) L L cfg.name cfg.outKey sh w (by simp) hus hk (fun v => withParams L s v.1 v.2) np sw nw target
    refine ⟨ℓ, l1, fun v => ?_⟩
    rw [hform, ← l2 v, List.map_cons, e2 v]
  refine ⟨fun v => valueOr (demoLoss L (solver T G) icfg s0 cfg r np sw nw X target s v.1 v.2), fun v => ?_, fun q p => ?_⟩
  · obtain ⟨ℓ, l1, l2⟩ := key v
    have : (fun v => valueOr (demoLoss L (solver T G) icfg s0 cfg r np sw nw X target s v.1 v.2)) = ℓ := by
      funext v
      rw [l2 v]
      rfl
    rw [this]
    exact l1
  · obtain ⟨ℓ, _, l2⟩ := key (q, p)
    have : demoLoss L (solver T G) icfg s0 cfg r np sw nw X target s q p = .ok (ℓ (q, p)) := l2 (q, p)
    show demoLoss L (solver T G) icfg s0 cfg r np sw nw X target s q p = .ok (valueOr (demoLoss L (solver T G) icfg s0 cfg r np sw nw X target s q p))
    rw [this]
    rfl

/-- C101: one round of the training loop of the demo.  For all particles, costates, batches and weights of the loss there is a bound on the learning rate below which the round leaves the parameters alone or
lowers the loss of the batch; it lowers the loss if some parameter that is neither frozen nor cut off has a gradient that is not identically zero. -/
theorem C101_demo (hL : L.Ok) (hap : Apart L) (ha : ∀ (κ : Type) [Fintype κ], AffineInParams (f κ)) (hs : ∀ (κ : Type) [Fintype κ], SmoothRhs (1 + 1) (f κ)) (hwt : ∀ r, weight wt r ≠ 0) {n B : Nat} (hn : 0 < n) {T : Tableau} (hT : Explicit T)
    {G : List ℝ → List ℝ} {icfg : Θ → Nat → Integrand.Cfg ℝ (Trip ℝ) (Par P (P → ℝ)) (TDicts ℝ) ℝ (P → ℝ) H D} {s0 : Integrand.St ℝ (Par P (P → ℝ)) ℝ H D × (Nat → (P → ℝ) × (P → ℝ))} {cfg : Block.Cfg ℝ ℝ Θ Rb}
    (hb : IsBlock (autodiffCls L f wt) (solver T G) icfg s0 cfg) (hu : s0.1.useRnn = false) (he : s0.1.external = false)
    {s : Block.St ℝ ℝ Θ} (hdd : DimOk L s.dataDim) {w : Block.When ℝ} (hw : Block.Is s w) {ts : List ℝ} (hts : w.times = 0 :: ts) (hinc : (0 :: ts).Pairwise (· < ·)) (hne : ts ≠ [])
    {h : ℝ} (hG : Suits h G 0 ts) {x : Fin B × K → ℝ} {X : Tensor ℝ} (hX : cfg.initialData X = .ok (enc L "" B x)) (r : Rb) (np : Bool) (sw nw : ℝ) (target : List ℝ)
    {up : ℝ → ℝ → ℝ → ℝ} (hup : Downhill up) (frozen : String → Bool) (clip : String → Option ℝ) {q p : Fin n × K → ℝ} (hin : Inside clip (values L q p)) {g : Grads}
    (hg : Fresh frozen (derivatives L (fun q p => valueOr (demoLoss L (solver T G) icfg s0 cfg r np sw nw X target s q p)) q p) g) :
    ∃ η₀ : ℝ, 0 < η₀ ∧ ∀ η, 0 < η → η < η₀ → ∃ g' q' p' l l', oneRound L (up η) frozen clip (demoLoss L (solver T G) icfg s0 cfg r np sw nw X target s) q p g = .ok (g', values L q' p') ∧
      demoLoss L (solver T G) icfg s0 cfg r np sw nw X target s q p = .ok l ∧ demoLoss L (solver T G) icfg s0 cfg r np sw nw X target s q' p' = .ok l' ∧
      ((q', p') = (q, p) ∨ l' < l) ∧
      ((∃ d ∈ derivatives L (fun q p => valueOr (demoLoss L (solver T G) icfg s0 cfg r np sw nw X target s q p)) q p, frozen d.1 = false ∧ clip d.1 = none ∧ Moves d.2) → l' < l) := by
  obtain ⟨ℓ, h1, h2⟩ := C101_loss hL ha hs hwt (n := n) hn hT hb hu he hdd hw hts hinc hne hG hX r np sw nw target
  have e : (fun q p => valueOr (demoLoss L (solver T G) icfg s0 cfg r np sw nw X target s q p)) = fun q p => ℓ (q, p) := by
    funext q p
    rw [h2]
    rfl
  rw [e] at hg ⊢
  obtain ⟨η₀, h0, hη⟩ := C101_round hL hap h1 h2 hup frozen clip hin hg
  refine ⟨η₀, h0, fun η hp hl => ?_⟩
  obtain ⟨g', q', p', r1, _, _, r2, r3⟩ := hη η hp hl
  exact ⟨g', q', p', _, _, r1, h2 q p, h2 q' p', r2, r3⟩

end

end Verif.Descent
