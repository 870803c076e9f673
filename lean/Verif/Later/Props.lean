import Verif.Later.Block
import Verif.Whole.Props

/-!
# C79: later blocks of a network

The first block of a network gets an input tensor (C67).  Every later block gets the outputs of the block before it.  Its own state is put beside what is passed to it, its own data start at
zero, and the formulas of its class are applied to all coordinates together.
-/

namespace Verif.Later
open Verif Verif.Tensor Verif.Assembly Verif.Evolution Verif.Flow Verif.Whole

variable {K Kp Ko K' Kp' Ko' P R H D Θ Rb : Type}

/-! ## Runs of two blocks -/

section
variable {Ka Kb Ka' Kb' : Type} {J : Lays Ka Kb K Ka' Kb' K'} {c : Cls K K' P R} {dim dataDim : Nat}

theorem run_plain2 [Fintype K] [Fintype K'] (hc : Fits c J dim dataDim) (hi : Indep c) {cfg : Integrand.Cfg ℝ (Trip ℝ) (Par P R) (TDicts ℝ) ℝ R H D} (hcfg : IsCfg c dim dataDim cfg)
    (ha : cfg.analytic = false) {n B : Nat} (r0 : R) (M : Method ℝ ℝ) (zs : List (Sys2 (Fin n) (Fin B) K K')) (s : Integrand.St ℝ (Par P R) ℝ H D × (Nat → R × R))
    (hu : s.1.useRnn = false) (he : s.1.external = false) :
    ∃ s', runDict (plans2 J n B) (ofIntegrand cfg) M (zs.map (trip2 J)) s
      = (runSys (Evolution.field2 c.rhs c.dataRhs (modeOf c n r0)) M zs).map fun ys => (ys.map (trip2 J), s') := by
  obtain ⟨s', h, _⟩ := run_sim2 hc.ok (n := n) (B := B) (ofIntegrand cfg) (Evolution.field2 c.rhs c.dataRhs (modeOf c n r0)) (fun s => s.1.useRnn = false ∧ s.1.external = false)
    (fun t z s hs => by
      obtain ⟨s', h1, h2, h3⟩ := eval_plain2 hc hcfg ha t z s hs.1 hs.2
      exact ⟨s', by rw [h1, field_plain hi _ _ r0 t], h2, h3⟩) M zs s ⟨hu, he⟩
  exact ⟨s', h⟩

theorem run_rnn2 [Fintype K] [Fintype K'] (hc : Fits c J dim dataDim) {cfg : Integrand.Cfg ℝ (Trip ℝ) (Par P R) (TDicts ℝ) ℝ R H D} (hcfg : IsCfg c dim dataDim cfg)
    (ha : cfg.analytic = false) {n B : Nat} (M : Method ℝ ℝ) :
    ∀ (zs : List (Sys2 (Fin n) (Fin B) K K')) (s : Integrand.St ℝ (Par P R) ℝ H D × (Nat → R × R)) (θ : Par P R), s.1.useRnn = true → s.1.external = false →
      s.1.cache = none → (∀ z, firstEval M zs = some z → θ = (c.par n (s.2 0).1 z.1 z.2.1, (s.2 0).1)) →
      ∃ s', runDict (plans2 J n B) (ofIntegrand cfg) M (zs.map (trip2 J)) s
        = (runSys (Evolution.field2 c.rhs c.dataRhs (modeAt c n θ)) M zs).map fun ys => (ys.map (trip2 J), s') := by
  induction M with
  | done outs =>
    intro zs s θ hu he hn hθ
    refine ⟨s, ?_⟩
    unfold runDict runSys
    simp only [pointwise3_trip2 hc.ok, Except.map, List.map_map]
    rfl
  | fail e => intro zs s θ hu he hn hθ; exact ⟨s, rfl⟩
  | eval t g next ih =>
    intro zs s θ hu he hn hθ
    have hθ := hθ _ rfl
    obtain ⟨s1, h1, hu1, he1, hc1⟩ := eval_cached2 hc hcfg ha t (combine g zs) s hu he θ (.inr ⟨hn, hθ⟩)
    obtain ⟨s2, h2, _⟩ := run_sim2 hc.ok (n := n) (B := B) (ofIntegrand cfg) (Evolution.field2 c.rhs c.dataRhs (modeAt c n θ))
      (fun s => s.1.useRnn = true ∧ s.1.external = false ∧ s.1.cache = some θ)
      (fun t z s hs => by
        obtain ⟨s', h1, h2, h3, h4⟩ := eval_cached2 hc hcfg ha t z s hs.1 hs.2.1 θ (.inl hs.2.2)
        exact ⟨s', h1, h2, h3, h4⟩) next (zs ++ [Evolution.field2 c.rhs c.dataRhs (modeAt c n θ) t (combine g zs)]) s1 ⟨hu1, he1, hc1⟩
    refine ⟨s2, ?_⟩
    unfold runDict runSys
    rw [pointwise3_trip2 hc.ok, h1, ← h2]
    simp only [List.map_append, List.map_cons, List.map_nil, dotTrip2_eq, undotted3_dotted3]
    rfl
  | test q next ih =>
    intro zs s θ hu he hn hθ
    obtain ⟨s2, h2⟩ := ih (sumAll (combine q zs)) zs s θ hu he hn hθ
    refine ⟨s2, ?_⟩
    unfold runDict runSys
    rw [pointwise3_trip2 hc.ok, total_trip2 hc.ok]
    exact h2

theorem run_analytic2 [Fintype K] [Fintype K'] (hc : Fits c J dim dataDim) {cfg : Integrand.Cfg ℝ (Trip ℝ) (Par P R) (TDicts ℝ) ℝ R H D} (hcfg : IsCfg c dim dataDim cfg)
    (ha : cfg.analytic = true) {n B : Nat} (M : Method ℝ ℝ) (zs : List (Sys2 (Fin n) (Fin B) K K')) (s : Integrand.St ℝ (Par P R) ℝ H D × (Nat → R × R))
    (hM : firstEval M zs ≠ none) : runDict (plans2 J n B) (ofIntegrand cfg) M (zs.map (trip2 J)) s = .error .valueError := by
  induction M with
  | done outs => exact absurd rfl hM
  | fail e => exact absurd rfl hM
  | eval t g next ih =>
    unfold runDict
    rw [pointwise3_trip2 hc.ok, eval_analytic2 hcfg ha]
  | test q next ih =>
    unfold runDict
    rw [pointwise3_trip2 hc.ok, total_trip2 hc.ok]
    exact ih _ hM

end

/-! ## Where the own block is -/

/-- What a later block needs to know about the block before it: coordinates (`Lp`, `Lp'`) and name of the latter, its own coordinates (`Lo`, `Lo'`), and how both are put side by side (in the order
of their names). -/
structure Place (c : Cls K K' P R) (cfg : Block.Cfg ℝ ℝ Θ Rb) (nm : String) (Lp : Lay Kp) (Lp' : Lay Kp') (Lo : Lay Ko) (Lo' : Lay Ko')
    (e : Kp ⊕ Ko ≃ K) (e' : Kp' ⊕ Ko' ≃ K') (dataDim : Nat) : Prop where
  lay : c.lay.Ok
  dataLay : c.dataLay.Ok
  passed : Lp.Ok ∧ Lp'.Ok
  own : Lo.Ok ∧ Lo'.Ok
  fills : Fills Lo Lp' Lo' cfg.concatDim dataDim
  order : nm < cfg.name ∧ Joined c.lay Lp Lo e cfg.concatDim ∧ Joined c.dataLay Lp' Lo' e' dataDim ∨
    cfg.name < nm ∧ Joined c.lay Lo Lp ((Equiv.sumComm Ko Kp).trans e) cfg.concatDim ∧ Joined c.dataLay Lo' Lp' ((Equiv.sumComm Ko' Kp').trans e') dataDim

theorem beside_comm {n : Nat} (e : Kp ⊕ Ko ≃ K) (a : Fin n × Kp → ℝ) (b : Fin n × Ko → ℝ) : beside ((Equiv.sumComm Ko Kp).trans e) b a = beside e a b := by
  funext k
  simp only [beside, Equiv.symm_trans_apply, Equiv.sumComm_symm, Equiv.sumComm_apply]
  cases e.symm k.2 <;> rfl

/-- What is passed to a later block. -/
noncomputable def passed (nm : String) (Lp : Lay Kp) (Lp' : Lay Kp') {n B : Nat} (y : Sys2 (Fin n) (Fin B) Kp Kp') : Block.Inp ℝ :=
  ⟨none, some [(nm, enc Lp "" n y.1)], some [(nm, enc Lp "p_" n y.2.1)], some [(nm, enc Lp' "" B y.2.2)]⟩

/-- Where a later block starts: its own state and costate beside what is passed, zero data beside the data that are passed. -/
def start (e : Kp ⊕ Ko ≃ K) (e' : Kp' ⊕ Ko' ≃ K') {n B : Nat} (y : Sys2 (Fin n) (Fin B) Kp Kp') (q p : Fin n × Ko → ℝ) : Sys2 (Fin n) (Fin B) K K' :=
  (beside e y.1 q, beside e y.2.1 p, beside e' y.2.2 fun _ => 0)

theorem two_beside {La : Lay Kp} {Lb : Lay Ko} (e : Kp ⊕ Ko ≃ K) (a b pre : String) {n : Nat} (x : Fin n × Kp → ℝ) (y : Fin n × Ko → ℝ) :
    two La Lb e a b pre n (beside e x y) = [(a, enc La pre n x), (b, enc Lb pre n y)] := by
  unfold two
  rw [left_beside, right_beside]

/-- Whichever name comes first, a forward pass integrates two blocks: what is passed through, possibly changed before (`hpt`), and the own state. -/
theorem changed_core [Fintype K] [Fintype K'] {Kq : Type} {c : Cls K K' P R} {M : List ℝ → Method ℝ ℝ} {icfg : Θ → Nat → Integrand.Cfg ℝ (Trip ℝ) (Par P R) (TDicts ℝ) ℝ R H D}
    {s0 : Integrand.St ℝ (Par P R) ℝ H D × (Nat → R × R)} {cfg : Block.Cfg ℝ ℝ Θ Rb} (hb : IsBlock c M icfg s0 cfg) {nm : String} {Lp : Lay Kp} {Lq : Lay Kq} {Lp' : Lay Kp'} {Lo : Lay Ko}
    {Lo' : Lay Ko'} {e : Kq ⊕ Ko ≃ K} {e' : Kp' ⊕ Ko' ≃ K'} {dd : Nat} (hpl : Place c cfg nm Lq Lp' Lo Lo' e e' dd) {s s1 : Block.St ℝ ℝ Θ} {t : ℝ} (hw : Block.Is s (.upTo t))
    (hs1 : s1.theta = s.theta) {n B : Nat} {q p : Fin n × Ko → ℝ} (hq : s1.state = some (enc Lo "" n q)) (hp : s1.costate = some (enc Lo "p_" n p)) (y : Sys2 (Fin n) (Fin B) Kp Kp')
    (y' : Sys2 (Fin n) (Fin B) Kq Kp') (hy : y'.2.2 = y.2.2) (r : Rb)
    (hpt : Block.passThrough cfg r (some [(nm, enc Lp "" n y.1)]) (some [(nm, enc Lp "p_" n y.2.1)]) s = (s1, .ok (some [(nm, enc Lq "" n y'.1)], some [(nm, enc Lq "p_" n y'.2.1)])))
    {sh : List Nat} (hkey : (cfg.outKey, sh) ∈ c.dataLay.names) (ys : Py (List (Sys2 (Fin n) (Fin B) K K')))
    (hrun : ∀ {Ka Kb Ka' Kb' : Type} (J : Lays Ka Kb K Ka' Kb' K'), Fits c J cfg.concatDim dd →
      ∃ s', runDict (plans2 J n B) (ofIntegrand (icfg s.theta dd)) (M [0, t]) [trip2 J (start e e' y' q p)] s0 = ys.map fun ys => (ys.map (trip2 J), s')) :
    Block.forward cfg r (passed nm Lp Lp' y) s = report c.lay c.dataLay cfg.name cfg.outKey sh { s1 with dataDim := dd } (.upTo t) ys := by
  rcases hpl.order with ⟨hlt, hj, hj'⟩ | ⟨hlt, hj, hj'⟩
  · have hJ : Fits c ⟨nm, cfg.name, Lq, Lo, e, Lp', Lo', e'⟩ cfg.concatDim dd := ⟨⟨hlt, hpl.passed.1, hpl.own.1, hpl.passed.2, hpl.own.2⟩, hpl.lay, hpl.dataLay, hj, hj'⟩
    refine forward_sim2 hb hJ hw (s1 := { s1 with dataDim := dd }) hs1 rfl r (z := start e e' y' q p) ?_ hkey ys (hrun _ hJ)
    unfold passed
    rw [prepare_later hpl.passed.1 hpl.own.1 hpl.passed.2 hpl.own.2 cfg r hpl.fills (ne_of_lt hlt) hq hp _ _ _ _ _ hpt]
    simp only [trip2, start, two_beside, Block.pair, if_neg (not_lt.2 hlt.le), hy]
  · have hJ : Fits c ⟨cfg.name, nm, Lo, Lq, (Equiv.sumComm Ko Kq).trans e, Lo', Lp', (Equiv.sumComm Ko' Kp').trans e'⟩ cfg.concatDim dd :=
      ⟨⟨hlt, hpl.own.1, hpl.passed.1, hpl.own.2, hpl.passed.2⟩, hpl.lay, hpl.dataLay, hj, hj'⟩
    refine forward_sim2 hb hJ hw (s1 := { s1 with dataDim := dd }) hs1 rfl r (z := start e e' y' q p) ?_ hkey ys (hrun _ hJ)
    unfold passed
    rw [prepare_later hpl.passed.1 hpl.own.1 hpl.passed.2 hpl.own.2 cfg r hpl.fills (ne_of_gt hlt) hq hp _ _ _ _ _ hpt]
    simp only [trip2, start, ← beside_comm e, ← beside_comm e', two_beside, Block.pair, if_pos hlt, hy]

/-- ... without enlargement. -/
theorem later_core [Fintype K] [Fintype K'] {c : Cls K K' P R} {M : List ℝ → Method ℝ ℝ} {icfg : Θ → Nat → Integrand.Cfg ℝ (Trip ℝ) (Par P R) (TDicts ℝ) ℝ R H D}
    {s0 : Integrand.St ℝ (Par P R) ℝ H D × (Nat → R × R)} {cfg : Block.Cfg ℝ ℝ Θ Rb} (hb : IsBlock c M icfg s0 cfg) {nm : String} {Lp : Lay Kp} {Lp' : Lay Kp'} {Lo : Lay Ko} {Lo' : Lay Ko'}
    {e : Kp ⊕ Ko ≃ K} {e' : Kp' ⊕ Ko' ≃ K'} {dd : Nat} (hpl : Place c cfg nm Lp Lp' Lo Lo' e e' dd) {s : Block.St ℝ ℝ Θ} (hen : NoEnlarge cfg s) {t : ℝ} (hw : Block.Is s (.upTo t))
    {n B : Nat} {q p : Fin n × Ko → ℝ} (hq : s.state = some (enc Lo "" n q)) (hp : s.costate = some (enc Lo "p_" n p)) (y : Sys2 (Fin n) (Fin B) Kp Kp')
    {sh : List Nat} (hkey : (cfg.outKey, sh) ∈ c.dataLay.names) (r : Rb) (ys : Py (List (Sys2 (Fin n) (Fin B) K K')))
    (hrun : ∀ {Ka Kb Ka' Kb' : Type} (J : Lays Ka Kb K Ka' Kb' K'), Fits c J cfg.concatDim dd →
      ∃ s', runDict (plans2 J n B) (ofIntegrand (icfg s.theta dd)) (M [0, t]) [trip2 J (start e e' y q p)] s0 = ys.map fun ys => (ys.map (trip2 J), s')) :
    Block.forward cfg r (passed nm Lp Lp' y) s = report c.lay c.dataLay cfg.name cfg.outKey sh { s with dataDim := dd } (.upTo t) ys :=
  changed_core hb hpl hw rfl hq hp y y rfl r (passThrough_plain cfg s hen r _ _) hkey ys hrun

/-! ## Forward passes -/

/-- C79: a forward pass of a later block (automatic differentiation, no RNN mode), for every integration method, every integration time, all particles and costates of both blocks and all data: the
output consists of the values that the method gives when it is applied, coordinate by coordinate, to the shooting equations of the class, starting from the own state and costate beside the passed ones and
zeros beside the passed data. -/
theorem C79_forward [Fintype K] [Fintype K'] {c : Cls K K' P R} (hi : Indep c) {M : List ℝ → Method ℝ ℝ}
    {icfg : Θ → Nat → Integrand.Cfg ℝ (Trip ℝ) (Par P R) (TDicts ℝ) ℝ R H D} {s0 : Integrand.St ℝ (Par P R) ℝ H D × (Nat → R × R)}
    {cfg : Block.Cfg ℝ ℝ Θ Rb} (hb : IsBlock c M icfg s0 cfg) (ha : ∀ th dd, (icfg th dd).analytic = false) (hu : s0.1.useRnn = false) (he : s0.1.external = false)
    {nm : String} {Lp : Lay Kp} {Lp' : Lay Kp'} {Lo : Lay Ko} {Lo' : Lay Ko'} {e : Kp ⊕ Ko ≃ K} {e' : Kp' ⊕ Ko' ≃ K'} {dd : Nat} (hpl : Place c cfg nm Lp Lp' Lo Lo' e e' dd)
    {s : Block.St ℝ ℝ Θ} (hen : NoEnlarge cfg s) {t : ℝ} (hw : Block.Is s (.upTo t))
    {n B : Nat} {q p : Fin n × Ko → ℝ} (hq : s.state = some (enc Lo "" n q)) (hp : s.costate = some (enc Lo "p_" n p)) (y : Sys2 (Fin n) (Fin B) Kp Kp')
    {sh : List Nat} (hkey : (cfg.outKey, sh) ∈ c.dataLay.names) (r : Rb) (r0 : R) :
    Block.forward cfg r (passed nm Lp Lp' y) s = report c.lay c.dataLay cfg.name cfg.outKey sh { s with dataDim := dd } (.upTo t)
      (runSys (Evolution.field2 c.rhs c.dataRhs (modeOf c n r0)) (M [0, t]) [start e e' y q p]) :=
  later_core hb hpl hen hw hq hp y hkey r _ fun _ hJ => run_plain2 hJ hi (hb.integrand _ _) (ha _ _) r0 (M [0, t]) [start e e' y q p] s0 hu he

/-- C79 in RNN mode: the parameters are computed at the first evaluation, from the states and costates of both blocks, and then stay the same. -/
theorem C79_forward_rnn [Fintype K] [Fintype K'] {c : Cls K K' P R} {M : List ℝ → Method ℝ ℝ}
    {icfg : Θ → Nat → Integrand.Cfg ℝ (Trip ℝ) (Par P R) (TDicts ℝ) ℝ R H D} {s0 : Integrand.St ℝ (Par P R) ℝ H D × (Nat → R × R)}
    {cfg : Block.Cfg ℝ ℝ Θ Rb} (hb : IsBlock c M icfg s0 cfg) (ha : ∀ th dd, (icfg th dd).analytic = false) (hu : s0.1.useRnn = true) (he : s0.1.external = false) (hn : s0.1.cache = none)
    {nm : String} {Lp : Lay Kp} {Lp' : Lay Kp'} {Lo : Lay Ko} {Lo' : Lay Ko'} {e : Kp ⊕ Ko ≃ K} {e' : Kp' ⊕ Ko' ≃ K'} {dd : Nat} (hpl : Place c cfg nm Lp Lp' Lo Lo' e e' dd)
    {s : Block.St ℝ ℝ Θ} (hen : NoEnlarge cfg s) {t : ℝ} (hw : Block.Is s (.upTo t))
    {n B : Nat} {q p : Fin n × Ko → ℝ} (hq : s.state = some (enc Lo "" n q)) (hp : s.costate = some (enc Lo "p_" n p)) (y : Sys2 (Fin n) (Fin B) Kp Kp')
    {sh : List Nat} (hkey : (cfg.outKey, sh) ∈ c.dataLay.names) (r : Rb) (θ : Par P R)
    (hθ : ∀ z, firstEval (M [0, t]) [start e e' y q p] = some z → θ = (c.par n (s0.2 0).1 z.1 z.2.1, (s0.2 0).1)) :
    Block.forward cfg r (passed nm Lp Lp' y) s = report c.lay c.dataLay cfg.name cfg.outKey sh { s with dataDim := dd } (.upTo t)
      (runSys (Evolution.field2 c.rhs c.dataRhs (modeAt c n θ)) (M [0, t]) [start e e' y q p]) :=
  later_core hb hpl hen hw hq hp y hkey r _ fun _ hJ => run_rnn2 hJ (hb.integrand _ _) (ha _ _) (M [0, t]) [start e e' y q p] s0 θ hu he hn hθ

/-- C79: with the hand-written formulas a later block cannot be used: as soon as the method evaluates the right-hand side, a `ValueError` is raised. -/
theorem C79_analytic [Fintype K] [Fintype K'] {c : Cls K K' P R} {M : List ℝ → Method ℝ ℝ}
    {icfg : Θ → Nat → Integrand.Cfg ℝ (Trip ℝ) (Par P R) (TDicts ℝ) ℝ R H D} {s0 : Integrand.St ℝ (Par P R) ℝ H D × (Nat → R × R)}
    {cfg : Block.Cfg ℝ ℝ Θ Rb} (hb : IsBlock c M icfg s0 cfg) (ha : ∀ th dd, (icfg th dd).analytic = true)
    {nm : String} {Lp : Lay Kp} {Lp' : Lay Kp'} {Lo : Lay Ko} {Lo' : Lay Ko'} {e : Kp ⊕ Ko ≃ K} {e' : Kp' ⊕ Ko' ≃ K'} {dd : Nat} (hpl : Place c cfg nm Lp Lp' Lo Lo' e e' dd)
    {s : Block.St ℝ ℝ Θ} (hen : NoEnlarge cfg s) {t : ℝ} (hw : Block.Is s (.upTo t))
    {n B : Nat} {q p : Fin n × Ko → ℝ} (hq : s.state = some (enc Lo "" n q)) (hp : s.costate = some (enc Lo "p_" n p)) (y : Sys2 (Fin n) (Fin B) Kp Kp') (r : Rb)
    (hM : firstEval (M [0, t]) [start e e' y q p] ≠ none) :
    Block.forward cfg r (passed nm Lp Lp' y) s = ({ s with dataDim := dd }, .error .valueError) := by
  obtain ⟨sh, hkey⟩ := hb.key
  exact later_core hb hpl hen hw hq hp y hkey r (.error .valueError) fun _ hJ => ⟨s0, run_analytic2 hJ (hb.integrand _ _) (ha _ _) (M [0, t]) [start e e' y q p] s0 hM⟩

/-- C79: what a block returns for an integration time is what it passes on (so C67 and C79 can be chained). -/
theorem C79_pass_on (L : Lay K) (L' : Lay K') (nm key : String) (sh : List Nat) {n B : Nat} (y : Sys2 (Fin n) (Fin B) K K') :
    Block.passOn (outEnd L L' nm key sh y) = passed nm L L' y := rfl

end Verif.Later
