import Verif.Gradcheck.Penalty
import Verif.Gradcheck.Lemmas
import Verif.Converge.Forward
import Verif.Backprop.Props

/-!
# C93: gradients with hand-written formulas and with automatic differentiation
-/

namespace Verif.Gradcheck
open Verif Verif.Tensor Verif.Assembly Verif.Flow Verif.Whole Verif.Evolution Verif.Converge Verif.Shooting Verif.Models

variable {K K' P R R' H H' D D' Θ Rb : Type}

/-! ## The norm penalty -/

/-- C93: the norm penalty after a forward pass without RNN mode, for every integration method: the kinetic energy of the parameters at the last evaluation at time 0; if there is none, it
is what it was before. -/
theorem C93_penalty [Fintype K] [Fintype K'] {c : Cls K K' P R} (hL : c.lay.Ok) (hL' : c.dataLay.Ok) (hi : Indep c) {M : List ℝ → Method ℝ ℝ}
    {icfg : Θ → Nat → Integrand.Cfg ℝ (Trip ℝ) (Par P R) (TDicts ℝ) ℝ R H D} {s0 : Integrand.St ℝ (Par P R) ℝ H D × (Nat → R × R)}
    {cfg : Block.Cfg ℝ ℝ Θ Rb} (hb : IsBlock c M icfg s0 cfg) (hu : s0.1.useRnn = false) (he : s0.1.external = false)
    {s : Block.St ℝ ℝ Θ} (hdd : DimOk c.dataLay s.dataDim) {w : Block.When ℝ} (hw : Block.Is s w)
    {n B : Nat} {q p : Fin n × K → ℝ} {x : Fin B × K' → ℝ} (hq : s.state = some (enc c.lay "" n q)) (hp : s.costate = some (enc c.lay "p_" n p))
    {X : Tensor ℝ} (hX : cfg.initialData X = .ok (enc c.dataLay "" B x)) (r : Rb) (r0 : R) :
    penaltyAfter M icfg s0 cfg r ⟨some X, none, none, none⟩ s =
      (runSys (Evolution.field2 c.rhs c.dataRhs (modeOf c n r0)) (M w.times) [(q, p, x)]).map fun _ =>
        ((lastAtZero (Evolution.field2 c.rhs c.dataRhs (modeOf c n r0)) (M w.times) [(q, p, x)] none).map fun z => c.kin (c.par n r0 z.1 z.2.1)).or s0.1.penalty := by
  obtain ⟨s', h1, h2⟩ := run_last hL hL' cfg.name (n := n) (B := B) (ofIntegrand (icfg s.theta s.dataDim)) (Evolution.field2 c.rhs c.dataRhs (modeOf c n r0))
    (fun a m => m.1.useRnn = false ∧ m.1.external = false ∧ m.1.penalty = (a.map fun z => c.kin (c.par n r0 z.1 z.2.1)).or s0.1.penalty)
    (fun t z a m hm => by
      obtain ⟨s', e1, e2, e3, _, e5⟩ := eval_plain hL hL' hb.dim hdd (hb.integrand _ _) cfg.name t z m hm.1 hm.2.1
      refine ⟨s', by rw [e1, field_plain hi _ _ r0 t], e2, e3, ?_⟩
      rw [e5, hm.2.2]
      by_cases ht : t = 0
      · rw [if_pos ht, if_pos ht]
        simp only [usedPars, Option.map_some, Option.some_or]
        rw [(hi n (m.2 0).1 r0 z.1 z.2.1).1]
      · rw [if_neg ht, if_neg ht]) (M w.times) [(q, p, x)] none s0 ⟨hu, he, by simp⟩
  unfold penaltyAfter
  rw [memory_at hL hL' hb hdd hw hq hp hX r]
  rw [List.map_singleton] at h1
  rw [h1]
  cases runSys (Evolution.field2 c.rhs c.dataRhs (modeOf c n r0)) (M w.times) [(q, p, x)] with
  | error e => rfl
  | ok ys => simp only [Except.map, h2.2.2]

/-- C93: with a fixed-grid method that starts at time 0, the norm penalty after a forward pass is the kinetic energy of the parameters at the initial particles and costates, whatever happened
before. -/
theorem C93_penalty_initial [Fintype K] [Fintype K'] {c : Cls K K' P R} (hL : c.lay.Ok) (hL' : c.dataLay.Ok) (hi : Indep c) {T : Tableau} (hT : Explicit T) {G : List ℝ → List ℝ}
    {icfg : Θ → Nat → Integrand.Cfg ℝ (Trip ℝ) (Par P R) (TDicts ℝ) ℝ R H D} {s0 : Integrand.St ℝ (Par P R) ℝ H D × (Nat → R × R)}
    {cfg : Block.Cfg ℝ ℝ Θ Rb} (hb : IsBlock c (solver T G) icfg s0 cfg) (hu : s0.1.useRnn = false) (he : s0.1.external = false)
    {s : Block.St ℝ ℝ Θ} (hdd : DimOk c.dataLay s.dataDim) {w : Block.When ℝ} (hw : Block.Is s w) {ts : List ℝ} (hwt : w.times = 0 :: ts) (hinc : (0 :: ts).Pairwise (· < ·)) (hts : ts ≠ [])
    {h : ℝ} (hG : Suits h G 0 ts)
    {n B : Nat} {q p : Fin n × K → ℝ} {x : Fin B × K' → ℝ} (hq : s.state = some (enc c.lay "" n q)) (hp : s.costate = some (enc c.lay "p_" n p))
    {X : Tensor ℝ} (hX : cfg.initialData X = .ok (enc c.dataLay "" B x)) (r : Rb) (r0 : R) :
    penaltyAfter (solver T G) icfg s0 cfg r ⟨some X, none, none, none⟩ s = .ok (some (c.kin (c.par n r0 q p))) := by
  rw [C93_penalty hL hL' hi hb hu he hdd hw hq hp hX r r0, hwt, last_solver _ hT G ts hinc hts hG]
  obtain ⟨g, h1, h2, _⟩ := hG
  rw [run_solver _ T G 0 ts g _ ((increasing_iff _).2 hinc) h1 h2]
  rfl

/-! ## The same loss -/

/-- Two blocks that differ in how they compute the equations: with hand-written formulas, and with automatic differentiation. -/
structure Pair [Fintype K] [Fintype P] (L : Lay K) (f : Evolution.Class K P) (wt : P → Option ℝ) (par : ∀ n, (Fin n × K → ℝ) → (Fin n × K → ℝ) → P → ℝ)
    (cost : ∀ n, (P → ℝ) → (Fin n × K → ℝ) → (Fin n × K → ℝ) → Fin n × K → ℝ) (M : List ℝ → Method ℝ ℝ)
    (icfg : Θ → Nat → Integrand.Cfg ℝ (Trip ℝ) (Par P R) (TDicts ℝ) ℝ R H D) (s0 : Integrand.St ℝ (Par P R) ℝ H D × (Nat → R × R)) (cfg : Block.Cfg ℝ ℝ Θ Rb)
    (icfg' : Θ → Nat → Integrand.Cfg ℝ (Trip ℝ) (Par P (P → ℝ)) (TDicts ℝ) ℝ (P → ℝ) H' D') (s0' : Integrand.St ℝ (Par P (P → ℝ)) ℝ H' D' × (Nat → (P → ℝ) × (P → ℝ)))
    (cfg' : Block.Cfg ℝ ℝ Θ Rb) : Prop where
  analytic : IsBlock (analyticCls L f par cost wt) M icfg s0 cfg
  automatic : IsBlock (autodiffCls L f wt) M icfg' s0' cfg'
  rnn : s0.1.useRnn = false ∧ s0'.1.useRnn = false
  external : s0.1.external = false ∧ s0'.1.external = false
  name : cfg.name = cfg'.name
  key : cfg.outKey = cfg'.outKey

section
variable [Fintype K] [Fintype P] {L : Lay K} {f : Evolution.Class K P} {wt : P → Option ℝ} {par : ∀ n, (Fin n × K → ℝ) → (Fin n × K → ℝ) → P → ℝ}
  {cost : ∀ n, (P → ℝ) → (Fin n × K → ℝ) → (Fin n × K → ℝ) → Fin n × K → ℝ} {M : List ℝ → Method ℝ ℝ}
  {icfg : Θ → Nat → Integrand.Cfg ℝ (Trip ℝ) (Par P R) (TDicts ℝ) ℝ R H D} {s0 : Integrand.St ℝ (Par P R) ℝ H D × (Nat → R × R)} {cfg : Block.Cfg ℝ ℝ Θ Rb}
  {icfg' : Θ → Nat → Integrand.Cfg ℝ (Trip ℝ) (Par P (P → ℝ)) (TDicts ℝ) ℝ (P → ℝ) H' D'} {s0' : Integrand.St ℝ (Par P (P → ℝ)) ℝ H' D' × (Nat → (P → ℝ) × (P → ℝ))}
  {cfg' : Block.Cfg ℝ ℝ Θ Rb}

theorem analytic_autodiff {n : Nat} (hx : Exact f wt n (par n) (cost n)) (r : R) :
    (modeOf (analyticCls L f par cost wt) n r : Mode (Fin n) K P) = modeOf (autodiffCls L f wt) n 0 := by
  unfold modeOf analyticCls autodiffCls
  congr 1
  · funext _ q p
    exact (hx q p).1.symm
  · funext _ q p
    exact (hx q p).2.symm

/-- C93: where the hand-written formulas are those of automatic differentiation, the two ways give the same block: the same output, the same exceptions and the same norm penalty, for every
integration method, all particles, costates and inputs. -/
theorem C93_same (hL : L.Ok) (ha : ∀ n, AffineInParams (f (Fin n))) (hP : Pair L f wt par cost M icfg s0 cfg icfg' s0' cfg') {n B : Nat} (hx : Exact f wt n (par n) (cost n))
    {s : Block.St ℝ ℝ Θ} (hdd : DimOk L s.dataDim) {w : Block.When ℝ} (hw : Block.Is s w)
    {q p : Fin n × K → ℝ} {x : Fin B × K → ℝ} (hq : s.state = some (enc L "" n q)) (hp : s.costate = some (enc L "p_" n p))
    {X : Tensor ℝ} (hX : cfg.initialData X = .ok (enc L "" B x)) (hX' : cfg'.initialData X = .ok (enc L "" B x)) (r : Rb) (hpen : s0.1.penalty = s0'.1.penalty) :
    Block.forward cfg r ⟨some X, none, none, none⟩ s = Block.forward cfg' r ⟨some X, none, none, none⟩ s ∧
    penaltyAfter M icfg s0 cfg r ⟨some X, none, none, none⟩ s = penaltyAfter M icfg' s0' cfg' r ⟨some X, none, none, none⟩ s := by
  obtain ⟨sh, hkey⟩ := hP.analytic.key
  have e := analytic_autodiff (L := L) hx (s0.2 0).1
  constructor
  · rw [C67_forward (c := analyticCls L f par cost wt) hL hL (indep_analytic L f par cost wt) hP.analytic hP.rnn.1 hP.external.1 hdd hw hq hp hX hkey r (s0.2 0).1,
      C67_forward (c := autodiffCls L f wt) hL hL (indep_autodiff L ha wt) hP.automatic hP.rnn.2 hP.external.2 hdd hw hq hp hX' (hP.key ▸ hkey) r 0, e, hP.name, hP.key]
    rfl
  · rw [C93_penalty (c := analyticCls L f par cost wt) hL hL (indep_analytic L f par cost wt) hP.analytic hP.rnn.1 hP.external.1 hdd hw hq hp hX r (s0.2 0).1,
      C93_penalty (c := autodiffCls L f wt) hL hL (indep_autodiff L ha wt) hP.automatic hP.rnn.2 hP.external.2 hdd hw hq hp hX' r 0, e, hpen]
    have hk : ∀ q p, (analyticCls (R := R) L f par cost wt).par n (s0.2 0).1 q p = (autodiffCls L f wt).par n 0 q p := fun q p => (hx q p).1.symm
    simp only [hk]
    rfl

/-- C93: hence the loss of the script is the same function of the parameters. -/
theorem C93_same_loss (hL : L.Ok) (ha : ∀ n, AffineInParams (f (Fin n))) (hP : Pair L f wt par cost M icfg s0 cfg icfg' s0' cfg') {n B : Nat} (hx : Exact f wt n (par n) (cost n))
    {s : Block.St ℝ ℝ Θ} (hdd : DimOk L s.dataDim) {w : Block.When ℝ} (hw : Block.Is s w) {x : Fin B × K → ℝ}
    {X : Tensor ℝ} (hX : cfg.initialData X = .ok (enc L "" B x)) (hX' : cfg'.initialData X = .ok (enc L "" B x)) (r : Rb) (hpen : s0.1.penalty = s0'.1.penalty) (q p : Fin n × K → ℝ) :
    testLoss L M icfg s0 cfg r X s q p = testLoss L M icfg' s0' cfg' r X s q p := by
  have hw' : Block.Is (withParams L s q p) w := by cases w <;> exact hw
  obtain ⟨h1, h2⟩ := C93_same hL ha hP hx (s := withParams L s q p) hdd hw' (q := q) (p := p) rfl rfl hX hX' r hpen
  unfold testLoss
  rw [h1, h2]

end

/-! ## The loss is differentiable -/

section
variable {V : Type} [NormedAddCommGroup V] [NormedSpace ℝ V]

theorem differentiableAt_value [Fintype K] (L : Lay K) {B : Nat} {u : V → Fin B × K → ℝ} {v : V} (hu : DifferentiableAt ℝ u v) (key : String) (idx : List Nat) :
    DifferentiableAt ℝ (fun v => value L B (u v) key idx) v := by
  cases idx with
  | nil => exact differentiableAt_const _
  | cons i idx =>
    by_cases h : i < B
    · simp only [value, dif_pos h]
      cases L.coord key idx with
      | none => exact differentiableAt_const _
      | some k => exact differentiableAt_pi.1 hu (⟨i, h⟩, k)
    · simp only [value, dif_neg h]
      exact differentiableAt_const _

theorem differentiableAt_mean {F : V → List Nat → ℝ} {v : V} (hF : ∀ idx, DifferentiableAt ℝ (fun v => F v idx) v) (sh : List Nat) :
    DifferentiableAt ℝ (fun v => (((tab sh (F v)).data.map fun x => x ^ 2).sum / (tab sh (F v)).data.length : ℝ)) v := by
  have h1 : ∀ l : List (List Nat), DifferentiableAt ℝ (fun v => (l.map fun idx => F v idx ^ 2).sum) v := by
    intro l
    induction l with
    | nil => exact differentiableAt_const _
    | cons idx l ih =>
      simp only [List.map_cons, List.sum_cons]
      exact ((hF idx).pow 2).add ih
  simp only [tab, tabData_eq, List.map_map, List.length_map, indices_length, div_eq_mul_inv]
  exact (h1 _).mul_const _

/-- The loss of a pass whose values and whose penalty are differentiable functions of something. -/
theorem loss_report [Fintype K] [Fintype K'] (L : Lay K) (L' : Lay K') (nm key : String) (sh : List Nat) {n B : Nat} (w : Block.When ℝ) {v : V} {us : List (V → Sys2 (Fin n) (Fin B) K K')} (hne : us ≠ [])
    (hu : ∀ u ∈ us, DifferentiableAt ℝ u v) {k : V → ℝ} (hk : DifferentiableAt ℝ k v) (s : V → Block.St ℝ ℝ Θ) :
    ∃ ℓ : V → ℝ, DifferentiableAt ℝ ℓ v ∧ ∀ v, lossOf (report L L' nm key sh (s v) w (.ok (us.map fun u => u v))).2 (.ok (some (k v))) = .ok (ℓ v) := by
  cases w with
  | upTo t =>
    obtain ⟨u, hl⟩ : ∃ u, us.getLast? = some u := ⟨_, List.getLast?_eq_some_getLast hne⟩
    have hd := hu u (List.mem_of_getLast? hl)
    refine ⟨_, (differentiableAt_mean (F := fun v => value L' B (u v).2.2 key) (fun idx => differentiableAt_value L' (hd.snd.snd) key idx) (B :: sh)).add hk, fun v => ?_⟩
    unfold report
    simp only [List.getLast?_map, hl, Option.map_some]
    rfl
  | vector ts =>
    refine ⟨_, (differentiableAt_mean (F := fun v idx => (((us.map fun u => u v)[idx.headD 0]?).map fun y => value L' B y.2.2 key idx.tail).getD 0) ?_ (us.length :: B :: sh)).add hk, fun v => ?_⟩
    · intro idx
      simp only [List.getElem?_map]
      cases he : us[idx.headD 0]? with
      | none => exact differentiableAt_const _
      | some u => exact differentiableAt_value L' (hu u (List.mem_of_getElem? he)).snd.snd key _
    · unfold report lossOf
      simp only [outTimes, List.length_map]
      rfl

end

section
variable [Fintype K] [Fintype P] {L : Lay K} {f : Evolution.Class K P} {wt : P → Option ℝ}

/-- C93: with a differentiable nonlinearity and a fixed-grid method, the loss of the script is defined for all particles and costates and is a differentiable function of them. -/
theorem C93_differentiable (hL : L.Ok) (ha : ∀ (κ : Type) [Fintype κ], AffineInParams (f κ)) (hs : ∀ (κ : Type) [Fintype κ], SmoothRhs (1 + 1) (f κ)) (hwt : ∀ r, weight wt r ≠ 0) {n B : Nat} (hn : 0 < n) {T : Tableau} (hT : Explicit T) {G : List ℝ → List ℝ}
    {icfg : Θ → Nat → Integrand.Cfg ℝ (Trip ℝ) (Par P (P → ℝ)) (TDicts ℝ) ℝ (P → ℝ) H D} {s0 : Integrand.St ℝ (Par P (P → ℝ)) ℝ H D × (Nat → (P → ℝ) × (P → ℝ))} {cfg : Block.Cfg ℝ ℝ Θ Rb}
    (hb : IsBlock (autodiffCls L f wt) (solver T G) icfg s0 cfg) (hu : s0.1.useRnn = false) (he : s0.1.external = false)
    {s : Block.St ℝ ℝ Θ} (hdd : DimOk L s.dataDim) {w : Block.When ℝ} (hw : Block.Is s w) {ts : List ℝ} (hts : w.times = 0 :: ts) (hinc : (0 :: ts).Pairwise (· < ·)) (hne : ts ≠ [])
    {h : ℝ} (hG : Suits h G 0 ts) {x : Fin B × K → ℝ} {X : Tensor ℝ} (hX : cfg.initialData X = .ok (enc L "" B x)) (r : Rb) :
    ∃ ℓ : (Fin n × K → ℝ) × (Fin n × K → ℝ) → ℝ, Differentiable ℝ ℓ ∧ ∀ q p, testLoss L (solver T G) icfg s0 cfg r X s q p = .ok (ℓ (q, p)) := by
  have : Nonempty (Fin n) := ⟨⟨0, hn⟩⟩
  obtain ⟨sh, hkey⟩ := hb.key
  have hC := contDiff_autodiff (ι := Fin n) (β := Fin B) (n := 1) (ha _) (hs _) (ha _) (hs _).less wt hwt fun _ => (0, 0)
  have hd : ∀ t, Differentiable ℝ fun z : Sys (Fin n) (Fin B) K => Evolution.field f (Evolution.autodiff f wt fun _ => (0, 0)) t z := fun t =>
    (hC.comp (contDiff_const.prodMk contDiff_id : ContDiff ℝ (1 : ℕ) fun z : Sys (Fin n) (Fin B) K => (t, z))).differentiable (by simp)
  have hw' : ∀ q p : Fin n × K → ℝ, Block.Is (withParams L s q p) w := fun q p => by cases w <;> exact hw
  obtain ⟨g, h1, h2, h3⟩ := hG
  have hform : ∀ q p : Fin n × K → ℝ, testLoss L (solver T G) icfg s0 cfg r X s q p =
      lossOf (report L L cfg.name cfg.outKey sh (withParams L s q p) w (.ok ((q, p, x) :: outputs (increment T (Evolution.field f (Evolution.autodiff f wt fun _ => (0, 0)))) 0 (q, p, x) g ts))).2
        (.ok (some (kineticEnergy wt (directParameters (f (Fin n)) wt 0 q p)))) := by
    intro q p
    unfold testLoss
    rw [C67_forward_autodiff hL (fun _ => (ha _)) wt hb hu he (s := withParams L s q p) hdd (hw' q p) rfl rfl hX hkey r fun _ => (0, 0),
      C93_penalty_initial (c := autodiffCls L f wt) hL hL (indep_autodiff L (fun _ => (ha _)) wt) hT hb hu he (s := withParams L s q p) hdd (hw' q p) hts hinc hne ⟨g, h1, h2, h3⟩
        (q := q) (p := p) rfl rfl hX r 0, hts, show Evolution.field f (Evolution.autodiff f wt fun _ => (0, 0)) = Evolution.field2 f f (Evolution.autodiff f wt fun _ => (0, 0)) from rfl,
      run_solver _ T G 0 ts g _ ((increasing_iff _).2 hinc) h1 h2]
    rfl
  have key : ∀ v : (Fin n × K → ℝ) × (Fin n × K → ℝ), ∃ ℓ : (Fin n × K → ℝ) × (Fin n × K → ℝ) → ℝ, DifferentiableAt ℝ ℓ v ∧ ∀ v, testLoss L (solver T G) icfg s0 cfg r X s v.1 v.2 = .ok (ℓ v) := by
    intro v
    have hu0 : DifferentiableAt ℝ (fun v : (Fin n × K → ℝ) × (Fin n × K → ℝ) => ((v.1, v.2, x) : Sys (Fin n) (Fin B) K)) v :=
      differentiableAt_fst.prodMk (differentiableAt_snd.prodMk (differentiableAt_const x))
    obtain ⟨us, e1, e2⟩ := Backprop.follows_outputs hd T g 0 (u := fun v : (Fin n × K → ℝ) × (Fin n × K → ℝ) => ((v.1, v.2, x) : Sys (Fin n) (Fin B) K)) (p := (_, _)) ⟨rfl, hu0.hasFDerivAt⟩ ts
    have hus : ∀ u ∈ (fun v : (Fin n × K → ℝ) × (Fin n × K → ℝ) => ((v.1, v.2, x) : Sys (Fin n) (Fin B) K)) :: us, DifferentiableAt ℝ u v := by
      intro u hm
      rcases List.mem_cons.1 hm with rfl | hm
      · exact hu0
      · obtain ⟨i, hi, rfl⟩ := List.getElem_of_mem hm
        have := (List.forall₂_iff_get.1 e1).2 i hi (by rw [← e1.length_eq]; exact hi)
        exact this.2.differentiableAt
    have hk : DifferentiableAt ℝ (fun v : (Fin n × K → ℝ) × (Fin n × K → ℝ) => kineticEnergy wt (directParameters (f (Fin n)) wt 0 v.1 v.2)) v := by
      have hθ : ContDiff ℝ (1 : ℕ) fun v : (Fin n × K → ℝ) × (Fin n × K → ℝ) => directParameters (f (Fin n)) wt 0 v.1 v.2 :=
        contDiff_directParameters (ha _) (hs _).less wt (fun _ => 0) contDiff_fst contDiff_snd
      have : (fun v : (Fin n × K → ℝ) × (Fin n × K → ℝ) => kineticEnergy wt (directParameters (f (Fin n)) wt 0 v.1 v.2)) =
          fun v => ∑ r, weight wt r / 2 * directParameters (f (Fin n)) wt 0 v.1 v.2 r ^ 2 := by
        funext v
        exact kineticEnergy_eq _ _
      rw [this]
      exact (ContDiff.sum fun r _ => contDiff_const.mul (((contDiff_pi.1 hθ) r).pow 2)).differentiable (by simp) v
    obtain ⟨ℓ, l1, l2⟩ := loss_report (Θ := Θ) L L cfg.name cfg.outKey sh w (by simp) hus hk fun v => withParams L s v.1 v.2
    refine ⟨ℓ, l1, fun v => ?_⟩
    rw [hform, ← l2 v, List.map_cons, e2 v]
  refine ⟨fun v => valueOr (testLoss L (solver T G) icfg s0 cfg r X s v.1 v.2), fun v => ?_, fun q p => ?_⟩
  · obtain ⟨ℓ, l1, l2⟩ := key v
    have : (fun v => valueOr (testLoss L (solver T G) icfg s0 cfg r X s v.1 v.2)) = ℓ := by
      funext v
      rw [l2 v]
      rfl
    rw [this]
    exact l1
  · obtain ⟨ℓ, _, l2⟩ := key (q, p)
    have : testLoss L (solver T G) icfg s0 cfg r X s q p = .ok (ℓ (q, p)) := l2 (q, p)
    show testLoss L (solver T G) icfg s0 cfg r X s q p = .ok (valueOr (testLoss L (solver T G) icfg s0 cfg r X s q p))
    rw [this]
    rfl

end

/-! ## The comparison -/

/-- C93: a parameter passes exactly when its gradient is not identically zero, the two gradients vanish at the same elements and the ratios of the others are near one.  If both gradients vanish
identically, the script ends with a `RuntimeError`. -/
theorem C93_compare (tol : ℝ) {auto ana : List ℝ} (hl : auto.length = ana.length) :
    (compareOne tol auto ana = .ok true ↔ Moves auto ∧ Agree tol auto ana) ∧ (∀ e, compareOne tol auto ana = .error e ↔ e = .runtimeError ∧ ¬ Moves auto ∧ ¬ Moves ana) := by
  by_cases hs : List.Forall₂ (fun a b => a = 0 ↔ b = 0) auto ana
  · rcases compareOne_eq tol auto ana hs with ⟨h1, h2, h3⟩ | ⟨h1, h2, b, h3, h4⟩
    · rw [h3]
      refine ⟨⟨fun h => (by cases h), fun h => absurd h.1 h1⟩, fun e => ⟨fun h => ⟨(Except.error.inj h).symm, h1, h2⟩, fun h => by rw [h.1]⟩⟩
    · rw [h3]
      refine ⟨⟨fun h => ⟨h1, h4.1 (Except.ok.inj h)⟩, fun h => by rw [h4.2 h.2]⟩, fun e => ⟨fun h => (by cases h), fun h => absurd h1 h.2.1⟩⟩
  · rw [compareOne_differ tol _ _ hs]
    refine ⟨⟨fun h => (by cases h), fun h => absurd h.2.zeros hs⟩, fun e => ⟨fun h => (by cases h), fun h => absurd (zeros_of_still hl h.2.1 h.2.2) hs⟩⟩

/-- C93: gradients that agree differ by at most the tolerance, relative to the hand-written ones. -/
theorem C93_relative {tol : ℝ} {auto ana : List ℝ} (h : Agree tol auto ana) : List.Forall₂ (fun a b => |a - b| ≤ tol * |b|) auto ana := by
  refine h.imp fun a b hab => ?_
  by_cases hb : b = 0
  · have ha := hab.1.2 hb
    subst ha hb
    simp
  · have e : a - b = (a / b - 1) * b := by field_simp
    rw [e, abs_mul]
    exact mul_le_mul_of_nonneg_right (hab.2 hb).le (abs_nonneg b)

/-- C93: the recorded gradients are the derivatives of the loss of this pass; passes before it have no influence. -/
theorem C93_recorded {L : Lay K} (hL : L.Ok) (ha : Apart L) {n : Nat} {loss : (Fin n × K → ℝ) → (Fin n × K → ℝ) → Py ℝ} {q p : Fin n × K → ℝ} {v : ℝ} (hok : loss q p = .ok v) {g : Grads}
    (hg : Ready (derivatives L (fun q p => valueOr (loss q p)) q p) g) :
    onePass L (.ok ()) loss q p g =
      .ok ((derivatives L (fun q p => valueOr (loss q p)) q p).map fun d => (d.1, some d.2), derivatives L (fun q p => valueOr (loss q p)) q p) := by
  unfold onePass
  simp only [bind, Except.bind, hok]
  rw [accumulate_zero (derivatives_nodup hL ha _ q p) hg, recorded_some]

/-- What the script compares: the gradients of the two losses. -/
theorem checkModel_eq {L : Lay K} (hL : L.Ok) (ha : Apart L) {n : Nat} (tol : ℝ) {ana auto : (Fin n × K → ℝ) → (Fin n × K → ℝ) → Py ℝ} {q p : Fin n × K → ℝ} {v v' : ℝ} (h : ana q p = .ok v)
    (h' : auto q p = .ok v') (c : Nat × Nat) :
    checkModel L tol (.ok ()) (.ok ()) ana auto q p c =
      compareAll tol (derivatives L (fun q p => valueOr (ana q p)) q p) (derivatives L (fun q p => valueOr (auto q p)) q p) c := by
  unfold checkModel
  have r1 : Ready (derivatives L (fun q p => valueOr (ana q p)) q p) (((L.names.map fun e => "" ++ e.1) ++ (L.names.map fun e => "p_" ++ e.1)).map fun nm => (nm, none)) := by
    unfold Ready
    rw [← derivatives_keys L (fun q p => valueOr (ana q p)) q p, SDict.keys, List.map_map, List.forall₂_map_left_iff, List.forall₂_same]
    exact fun d _ => ⟨rfl, fun l hl => by cases hl⟩
  have r2 : Ready (derivatives L (fun q p => valueOr (auto q p)) q p) ((derivatives L (fun q p => valueOr (ana q p)) q p).map fun d => (d.1, some d.2)) := by
    unfold Ready
    rw [List.forall₂_map_left_iff]
    refine (derivatives_shape L _ _ q p).imp fun d d' hd => ⟨hd.1, fun l hl => ?_⟩
    rw [← Option.some.inj hl]
    exact hd.2
  simp only [C93_recorded hL ha h r1, C93_recorded hL ha h' r2, bind, Except.bind]

/-- C93: the verdict on one model.  There is one comparison for every tensor of the particles and one for every tensor of the costates; all of them pass exactly when all gradients agree.  If for
some tensor both gradients are identically zero, the script ends with a `RuntimeError` instead. -/
theorem C93_verdict {L : Lay K} (hL : L.Ok) (ha : Apart L) {n : Nat} (tol : ℝ) {ana auto : (Fin n × K → ℝ) → (Fin n × K → ℝ) → Py ℝ} {q p : Fin n × K → ℝ} {v v' : ℝ} (h : ana q p = .ok v)
    (h' : auto q p = .ok v') (c : Nat × Nat) :
    ((∃ x ∈ (derivatives L (fun q p => valueOr (auto q p)) q p).zip (derivatives L (fun q p => valueOr (ana q p)) q p), ¬ Moves x.1.2 ∧ ¬ Moves x.2.2) ∧
      checkModel L tol (.ok ()) (.ok ()) ana auto q p c = .error .runtimeError) ∨
    ∃ k, k ≤ 2 * L.names.length ∧ checkModel L tol (.ok ()) (.ok ()) ana auto q p c = .ok (c.1 + k, c.2 + 2 * L.names.length) ∧
      (k = 2 * L.names.length ↔ List.Forall₂ (fun a b => a.1 = b.1 ∧ Agree tol a.2 b.2) (derivatives L (fun q p => valueOr (auto q p)) q p) (derivatives L (fun q p => valueOr (ana q p)) q p)) := by
  rw [checkModel_eq hL ha tol h h' c]
  have hs := derivatives_shape L (fun q p => valueOr (auto q p)) (fun q p => valueOr (ana q p)) q p
  have hn := derivatives_nodup hL ha (fun q p => valueOr (ana q p)) q p
  have hlen := derivatives_length L (fun q p => valueOr (auto q p)) q p
  generalize derivatives L (fun q p => valueOr (auto q p)) q p = A at hs hlen ⊢
  generalize derivatives L (fun q p => valueOr (ana q p)) q p = B at hs hn ⊢
  have hf : List.Forall₂ (fun e b => SDict.get? B e.1 = some b ∧ e.2.length = b.length) A (B.map Prod.snd) := by
    rw [List.forall₂_map_right_iff, List.forall₂_iff_get]
    rw [List.forall₂_iff_get] at hs
    refine ⟨hs.1, fun i hi hi' => ?_⟩
    obtain ⟨e1, e2⟩ := hs.2 i hi hi'
    refine ⟨?_, e2⟩
    rw [e1]
    exact SDict.get?_eq_some_of_mem hn (List.get_mem B ⟨i, hi'⟩)
  rcases compareAll_spec tol B hf c with ⟨⟨x, hx, hm⟩, e⟩ | ⟨_, k, h1, h2, h3⟩
  · refine .inl ⟨?_, e⟩
    rw [List.zip_map_right] at hx
    obtain ⟨y, hy, rfl⟩ := List.mem_map.1 hx
    exact ⟨y, hy, hm⟩
  · rw [hlen] at h1 h2 h3
    refine .inr ⟨k, h1, h2, h3.trans ?_⟩
    rw [List.forall₂_map_right_iff]
    constructor
    · intro h
      rw [List.forall₂_iff_get] at h hs ⊢
      exact ⟨h.1, fun i hi hi' => ⟨(hs.2 i hi hi').1, h.2 i hi hi'⟩⟩
    · exact fun h => h.imp fun _ _ h => h.2

theorem agree_self {tol : ℝ} (ht : 0 < tol) (l : List ℝ) : Agree tol l l := by
  unfold Agree
  rw [List.forall₂_same]
  exact fun a _ => ⟨Iff.rfl, fun h => by rw [div_self h]; simpa using ht⟩

theorem mem_zip_map {α β : Type} (g : α → β) {l : List α} {d : α} (h : d ∈ l) : (d, g d) ∈ l.zip (l.map g) := by
  induction l with
  | nil => cases h
  | cons a l ih =>
    rw [List.map_cons, List.zip_cons_cons, List.mem_cons]
    rcases List.mem_cons.1 h with rfl | h
    · exact .inl rfl
    · exact .inr (ih h)

/-- C93: when the two losses are the same function, a model passes all comparisons for every positive tolerance, unless the gradient with respect to some tensor is identically zero: then the
script ends with a `RuntimeError`. -/
theorem C93_script {L : Lay K} (hL : L.Ok) (ha : Apart L) {n : Nat} {tol : ℝ} (ht : 0 < tol) {ana auto : (Fin n × K → ℝ) → (Fin n × K → ℝ) → Py ℝ} (hsame : ∀ q p, ana q p = auto q p)
    {q p : Fin n × K → ℝ} {v : ℝ} (h : ana q p = .ok v) (c : Nat × Nat) :
    ((∀ d ∈ derivatives L (fun q p => valueOr (ana q p)) q p, Moves d.2) →
      checkModel L tol (.ok ()) (.ok ()) ana auto q p c = .ok (c.1 + 2 * L.names.length, c.2 + 2 * L.names.length)) ∧
    ((∃ d ∈ derivatives L (fun q p => valueOr (ana q p)) q p, ¬ Moves d.2) → checkModel L tol (.ok ()) (.ok ()) ana auto q p c = .error .runtimeError) := by
  have hs : ana = auto := funext fun q => funext fun p => hsame q p
  subst hs
  have hv := C93_verdict hL ha tol h h c
  constructor
  · intro hm
    rcases hv with ⟨⟨x, hx, h1, _⟩, _⟩ | ⟨k, _, e, hk⟩
    · exact absurd (hm _ (List.of_mem_zip hx).1) h1
    · rw [e, hk.2]
      rw [List.forall₂_same]
      exact fun d _ => ⟨rfl, agree_self ht _⟩
  · rintro ⟨d, hd, hm⟩
    rw [checkModel_eq hL ha tol h h c]
    have hn := derivatives_nodup hL ha (fun q p => valueOr (ana q p)) q p
    generalize derivatives L (fun q p => valueOr (ana q p)) q p = A at hd hn ⊢
    have hf : List.Forall₂ (fun e b => SDict.get? A e.1 = some b ∧ e.2.length = b.length) A (A.map Prod.snd) := by
      rw [List.forall₂_map_right_iff, List.forall₂_same]
      exact fun e he => ⟨SDict.get?_eq_some_of_mem hn he, rfl⟩
    rcases compareAll_spec tol A hf c with ⟨_, e⟩ | ⟨h1, _⟩
    · exact e
    · have := h1 (d, d.2) (mem_zip_map Prod.snd hd)
      exact absurd (this.elim id id) hm

/-- C93: the recorded gradients are gradients: for a differentiable loss the derivative in every direction is their scalar product with the direction. -/
theorem C93_gradient [Fintype K] {n : Nat} {ℓ : (Fin n × K → ℝ) × (Fin n × K → ℝ) → ℝ} (hℓ : Differentiable ℝ ℓ) (q p : Fin n × K → ℝ) :
    HasGrad (fun q' => ℓ (q', p)) (autograd (fun q' => ℓ (q', p)) q) q ∧ HasGrad (fun p' => ℓ (q, p')) (autograd (fun p' => ℓ (q, p')) p) p :=
  ⟨hasGrad_of_differentiableAt ((hℓ (q, p)).comp q (differentiableAt_id.prodMk (differentiableAt_const p))),
    hasGrad_of_differentiableAt ((hℓ (q, p)).comp p ((differentiableAt_const q).prodMk differentiableAt_id))⟩

section
variable [Fintype K] [Fintype P] {L : Lay K} {f : Evolution.Class K P} {wt : P → Option ℝ} {par : ∀ n, (Fin n × K → ℝ) → (Fin n × K → ℝ) → P → ℝ}
  {cost : ∀ n, (P → ℝ) → (Fin n × K → ℝ) → (Fin n × K → ℝ) → Fin n × K → ℝ}
  {icfg : Θ → Nat → Integrand.Cfg ℝ (Trip ℝ) (Par P R) (TDicts ℝ) ℝ R H D} {s0 : Integrand.St ℝ (Par P R) ℝ H D × (Nat → R × R)} {cfg : Block.Cfg ℝ ℝ Θ Rb}
  {icfg' : Θ → Nat → Integrand.Cfg ℝ (Trip ℝ) (Par P (P → ℝ)) (TDicts ℝ) ℝ (P → ℝ) H' D'} {s0' : Integrand.St ℝ (Par P (P → ℝ)) ℝ H' D' × (Nat → (P → ℝ) × (P → ℝ))}
  {cfg' : Block.Cfg ℝ ℝ Θ Rb}

/-- C93: one model of the script.  Both ways of computing have the same differentiable loss, and for all particles and costates all comparisons pass for every positive tolerance, unless a gradient is
identically zero. -/
theorem C93_model (hL : L.Ok) (hap : Apart L) (ha : ∀ (κ : Type) [Fintype κ], AffineInParams (f κ)) (hs : ∀ (κ : Type) [Fintype κ], SmoothRhs (1 + 1) (f κ)) (hwt : ∀ r, weight wt r ≠ 0)
    {n B : Nat} (hn : 0 < n) (hx : Exact f wt n (par n) (cost n)) {T : Tableau} (hT : Explicit T) {G : List ℝ → List ℝ} (hP : Pair L f wt par cost (solver T G) icfg s0 cfg icfg' s0' cfg')
    {s : Block.St ℝ ℝ Θ} (hdd : DimOk L s.dataDim) {w : Block.When ℝ} (hw : Block.Is s w) {ts : List ℝ} (hts : w.times = 0 :: ts) (hinc : (0 :: ts).Pairwise (· < ·)) (hne : ts ≠ [])
    {h : ℝ} (hG : Suits h G 0 ts) {x : Fin B × K → ℝ} {X : Tensor ℝ} (hX : cfg.initialData X = .ok (enc L "" B x)) (hX' : cfg'.initialData X = .ok (enc L "" B x)) (r : Rb)
    (hpen : s0.1.penalty = s0'.1.penalty) {tol : ℝ} (ht : 0 < tol) (c : Nat × Nat) :
    ∃ ℓ : (Fin n × K → ℝ) × (Fin n × K → ℝ) → ℝ, Differentiable ℝ ℓ ∧
      (∀ q p, testLoss L (solver T G) icfg s0 cfg r X s q p = .ok (ℓ (q, p)) ∧ testLoss L (solver T G) icfg' s0' cfg' r X s q p = .ok (ℓ (q, p))) ∧
      ∀ q p, (∀ d ∈ derivatives L (fun q p => ℓ (q, p)) q p, Moves d.2) →
        checkModel L tol (.ok ()) (.ok ()) (testLoss L (solver T G) icfg s0 cfg r X s) (testLoss L (solver T G) icfg' s0' cfg' r X s) q p c =
          .ok (c.1 + 2 * L.names.length, c.2 + 2 * L.names.length) := by
  obtain ⟨ℓ, h1, h2⟩ := C93_differentiable hL ha hs hwt (n := n) hn hT hP.automatic hP.rnn.2 hP.external.2 hdd hw hts hinc hne hG hX' r
  have hsame := C93_same_loss hL (fun _ => ha _) hP hx hdd hw hX hX' r hpen
  refine ⟨ℓ, h1, fun q p => ⟨(hsame q p).trans (h2 q p), h2 q p⟩, fun q p hm => ?_⟩
  refine (C93_script hL hap ht hsame ((hsame q p).trans (h2 q p)) c).1 ?_
  have e : (fun q p => valueOr (testLoss L (solver T G) icfg s0 cfg r X s q p)) = fun q p => ℓ (q, p) := by
    funext q p
    rw [hsame, h2]
    rfl
  rw [e]
  exact hm

end

theorem apart_layouts (c d e : Nat) : Apart (layOne c d) ∧ Apart (layTwo c d e) := by
  constructor
  · intro a ha b hb
    simp only [layOne, List.mem_singleton] at ha hb
    subst ha hb
    dsimp only
    decide
  · intro a ha b hb
    simp only [layTwo, List.mem_cons, List.not_mem_nil, or_false] at ha hb
    rcases ha with rfl | rfl <;> rcases hb with rfl | rfl <;> dsimp only <;> decide

/-- C93: the five models of the script, with any nonlinearity that is twice continuously differentiable and any weights that are not zero, satisfy what `C93_model` asks of a class. -/
theorem C93_classes {E F : Type} [Fintype E] [Fintype F] {nl dnl : ℝ → ℝ} (hnl : ContDiff ℝ 2 nl) (hd : ∀ x, HasDerivAt nl (dnl x) x) {n : Nat} (hn : 0 < n) :
    (∀ w, (∀ r, weight w r ≠ 0) → Exact (fun _ => universal nl : Evolution.Class (Two (Fin 1) E F) _) w n (universalParams nl) (universalCostate dnl)) ∧
    (∀ w, (∀ r, weight w r ≠ 0) → Exact (fun _ => upDown nl : Evolution.Class (Two (Fin 1) E F) _) w n (upDownParams nl) (upDownCostate dnl)) ∧
    (∀ w, (∀ r, weight w r ≠ 0) → Exact (fun _ => debugSimple nl : Evolution.Class (Two (Fin 1) E E) _) w n (debugSimpleParams nl) (debugSimpleCostate dnl)) ∧
    (∀ w, (∀ r, weight w r ≠ 0) → Exact (fun _ => simple nl : Evolution.Class (Fin 1 × E) _) w n (simpleParams nl) (simpleCostate dnl)) ∧
    (∀ w, (∀ r, weight w r ≠ 0) → Exact (fun _ => general nl 0 : Evolution.Class (Two (Fin 1) E F) _) w n (generalParams nl) (generalCostate dnl)) ∧
    ∀ (κ : Type) [Fintype κ],
      (AffineInParams (universal nl : Rhs (κ × Two (Fin 1) E F) _) ∧ SmoothRhs 2 (universal nl : Rhs (κ × Two (Fin 1) E F) _)) ∧
      (AffineInParams (upDown nl : Rhs (κ × Two (Fin 1) E F) _) ∧ SmoothRhs 2 (upDown nl : Rhs (κ × Two (Fin 1) E F) _)) ∧
      (AffineInParams (debugSimple nl : Rhs (κ × Two (Fin 1) E E) _) ∧ SmoothRhs 2 (debugSimple nl : Rhs (κ × Two (Fin 1) E E) _)) ∧
      (AffineInParams (simple nl : Rhs (κ × (Fin 1 × E)) _) ∧ SmoothRhs 2 (simple nl : Rhs (κ × (Fin 1 × E)) _)) ∧
      (AffineInParams (general nl 0 : Rhs (κ × Two (Fin 1) E F) _) ∧ SmoothRhs 2 (general nl 0 : Rhs (κ × Two (Fin 1) E F) _)) := by
  obtain ⟨h1, h2, h3, _, h5, h6⟩ := C68_exact (E := E) (F := F) hd hn
  exact ⟨h3, h2, h6, h1, h5, fun κ _ => ⟨⟨(linear_universal nl).affine, smooth_universal hnl⟩, ⟨(linear_upDown nl).affine, smooth_upDown hnl⟩, ⟨(linear_debugSimple nl).affine, smooth_debugSimple hnl⟩,
    ⟨(linear_simple nl).affine, smooth_simple hnl⟩, ⟨(linear_general nl).affine, smooth_general hnl 0⟩⟩⟩

end Verif.Gradcheck
