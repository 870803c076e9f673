import Verif.Whole.Block
import Verif.Evolution.Props
import Verif.Shapes.Props

/-!
# C67: a forward pass of a block solves the shooting equations of its class

The network from the input tensor to the output tensor: data dictionary, assembling, integrating a vector with any method, taking the vector apart at every evaluation,
concatenating, the formulas of the class, automatic differentiation or hand-written formulas, hooks, taking the result apart, extracting the output.
-/

namespace Verif.Whole
open Verif Verif.Tensor Verif.Assembly Verif.Evolution Verif.Flow Verif.Models

variable {K K' P R H D Θ Rb : Type}

/-! ## The layouts of the classes -/

theorem pair_some {c d : Nat} {l : List Nat} (h : Valid [c, d] l) : ∃ k, pair c d l = some k ∧ [k.1.1, k.2.1] = l := by
  cases h with
  | @cons a _ as _ ha h =>
    cases h with
    | @cons b _ bs _ hb h =>
      cases h
      exact ⟨(⟨a, ha⟩, ⟨b, hb⟩), by simp [pair, ha, hb], rfl⟩

theorem pair_back {c d : Nat} (k : Fin c × Fin d) : pair c d [k.1.1, k.2.1] = some k := by
  simp [pair]

theorem pair_valid {c d : Nat} (k : Fin c × Fin d) : Valid [c, d] [k.1.1, k.2.1] := .cons k.1.2 (.cons k.2.2 .nil)

theorem layOne_ok (c d : Nat) : (layOne c d).Ok where
  sorted := by show List.Pairwise (· < ·) ["q1"]; decide
  ne := by simp [layOne]
  into k := ⟨[c, d], by simp [layOne], pair_valid k, by simp [layOne, pair_back]⟩
  onto e he idx hv := by
    simp only [layOne, List.mem_singleton] at he
    subst he
    obtain ⟨k, h1, h2⟩ := pair_some hv
    exact ⟨k, by simp [layOne, h1], rfl, h2⟩

theorem layTwo_ok (c d e : Nat) : (layTwo c d e).Ok where
  sorted := by show List.Pairwise (· < ·) ["q1", "q2"]; decide
  ne := by simp [layTwo]
  into k := by
    rcases k with k | k
    · exact ⟨[c, d], by simp [layTwo], pair_valid k, by simp [layTwo, pair_back]⟩
    · exact ⟨[c, e], by simp [layTwo], pair_valid k, by simp [layTwo, pair_back]⟩
  onto x hx idx hv := by
    simp only [layTwo, List.mem_cons, List.not_mem_nil, or_false] at hx
    rcases hx with rfl | rfl
    · obtain ⟨k, h1, h2⟩ := pair_some hv
      exact ⟨.inl k, by simp [layTwo, h1], rfl, h2⟩
    · obtain ⟨k, h1, h2⟩ := pair_some hv
      exact ⟨.inr k, by simp [layTwo, h1], rfl, h2⟩

theorem layThree_ok (c d e : Nat) : (layThree c d e).Ok where
  sorted := by show List.Pairwise (· < ·) ["q1", "q2", "q3"]; decide
  ne := by simp [layThree]
  into k := by
    rcases k with k | k | k
    · exact ⟨[c, d], by simp [layThree], pair_valid k, by simp [layThree, pair_back]⟩
    · exact ⟨[c, e], by simp [layThree], pair_valid k, by simp [layThree, pair_back]⟩
    · exact ⟨[c, d], by simp [layThree], pair_valid k, by simp [layThree, pair_back]⟩
  onto x hx idx hv := by
    simp only [layThree, List.mem_cons, List.not_mem_nil, or_false] at hx
    rcases hx with rfl | rfl | rfl
    · obtain ⟨k, h1, h2⟩ := pair_some hv
      exact ⟨.inl k, by simp [layThree, h1], rfl, h2⟩
    · obtain ⟨k, h1, h2⟩ := pair_some hv
      exact ⟨.inr (.inl k), by simp [layThree, h1], rfl, h2⟩
    · obtain ⟨k, h1, h2⟩ := pair_some hv
      exact ⟨.inr (.inr k), by simp [layThree, h1], rfl, h2⟩

theorem layFour_ok (c d e : Nat) : (layFour c d e).Ok where
  sorted := by show List.Pairwise (· < ·) ["c1", "c2", "q1", "q2"]; decide
  ne := by simp [layFour]
  into k := by
    rcases k with (k | k) | k | k
    · exact ⟨[c, d], by simp [layFour], pair_valid k, by simp [layFour, pair_back]⟩
    · exact ⟨[c, e], by simp [layFour], pair_valid k, by simp [layFour, pair_back]⟩
    · exact ⟨[1, 1], by simp [layFour], pair_valid (0, 0), by simp [layFour, pair]⟩
    · exact ⟨[1, 1], by simp [layFour], pair_valid (0, 0), by simp [layFour, pair]⟩
  onto x hx idx hv := by
    simp only [layFour, List.mem_cons, List.not_mem_nil, or_false] at hx
    rcases hx with rfl | rfl | rfl | rfl
    · obtain ⟨k, h1, h2⟩ := pair_some hv
      exact ⟨.inr (.inl ()), by simp [layFour, h1], rfl, by rw [← h2]; simp [layFour]⟩
    · obtain ⟨k, h1, h2⟩ := pair_some hv
      exact ⟨.inr (.inr ()), by simp [layFour, h1], rfl, by rw [← h2]; simp [layFour]⟩
    · obtain ⟨k, h1, h2⟩ := pair_some hv
      exact ⟨.inl (.inl k), by simp [layFour, h1], rfl, h2⟩
    · obtain ⟨k, h1, h2⟩ := pair_some hv
      exact ⟨.inl (.inr k), by simp [layFour, h1], rfl, h2⟩

/-- C67: the layouts of all vector classes are such that every coordinate of a particle or sample has exactly one place, and the concatenation dimensions of the
classes (1 or 2) exist. -/
theorem C67_layouts (c d e : Nat) :
    ((layOne c d).Ok ∧ (layTwo c d e).Ok ∧ (layThree c d e).Ok ∧ (layFour c d e).Ok) ∧
    ∀ dim, dim ≤ 2 → DimOk (layOne c d) dim ∧ DimOk (layTwo c d e) dim ∧ DimOk (layThree c d e) dim ∧ DimOk (layFour c d e) dim := by
  refine ⟨⟨layOne_ok c d, layTwo_ok c d e, layThree_ok c d e, layFour_ok c d e⟩, fun dim h => ⟨⟨by omega, ?_⟩, ⟨by omega, ?_⟩, ⟨by omega, ?_⟩, ⟨by omega, ?_⟩⟩⟩ <;>
    simp [layOne, layTwo, layThree, layFour, h]

/-! ## Forward passes -/

theorem field_plain {c : Cls K K' P R} (hi : Indep c) {n B : Nat} (a : Bool) (r : R × R) (r0 : R) (t : ℝ) (z : Sys2 (Fin n) (Fin B) K K') :
    fieldWith c (usedPars c a r z).1 (usedPars c a r z).2 z = Evolution.field2 c.rhs c.dataRhs (modeOf c n r0) t z := by
  have h1 := hi n r.1 r0 z.1 z.2.1
  have h2 := hi n r.2 r0 z.1 z.2.1
  unfold fieldWith usedPars Evolution.field2 modeOf
  cases a with
  | true => simp only [if_true]; rw [h1.2, h1.1]
  | false => simp only [Bool.false_eq_true, if_false, h1.1]; rw [h2.2]

/-- The evaluations of a run without RNN mode. -/
theorem run_plain [Fintype K] [Fintype K'] {c : Cls K K' P R} (hL : c.lay.Ok) (hL' : c.dataLay.Ok) (hi : Indep c) {dim dataDim : Nat} (hd : DimOk c.lay dim) (hdd : DimOk c.dataLay dataDim)
    {cfg : Integrand.Cfg ℝ (Trip ℝ) (Par P R) (TDicts ℝ) ℝ R H D} (hc : IsCfg c dim dataDim cfg) (nm : String) {n B : Nat} (r0 : R)
    (M : Method ℝ ℝ) (zs : List (Sys2 (Fin n) (Fin B) K K')) (s : Integrand.St ℝ (Par P R) ℝ H D × (Nat → R × R)) (hu : s.1.useRnn = false) (he : s.1.external = false) :
    ∃ s', runDict (plansOf c.lay c.dataLay nm n B) (ofIntegrand cfg) M (zs.map (trip c.lay c.dataLay nm)) s
      = (runSys (Evolution.field2 c.rhs c.dataRhs (modeOf c n r0)) M zs).map fun ys => (ys.map (trip c.lay c.dataLay nm), s') := by
  obtain ⟨s', h, _⟩ := run_sim hL hL' nm (n := n) (B := B) (ofIntegrand cfg) (Evolution.field2 c.rhs c.dataRhs (modeOf c n r0)) (fun s => s.1.useRnn = false ∧ s.1.external = false)
    (fun t z s hs => by
      obtain ⟨s', h1, h2, h3, _⟩ := eval_plain hL hL' hd hdd hc nm t z s hs.1 hs.2
      exact ⟨s', by rw [h1, field_plain hi _ _ r0 t], h2, h3⟩) M zs s ⟨hu, he⟩
  exact ⟨s', h⟩

/-- C67: a forward pass of a block without RNN mode, for every integration method, every setting of the times, all particles, costates and inputs, every way of
computing the equations, whatever hooks record and whatever random numbers new parameters start from: the output consists of the values that the method gives when it is applied, coordinate by
coordinate, to the shooting equations of the class. -/
theorem C67_forward [Fintype K] [Fintype K'] {c : Cls K K' P R} (hL : c.lay.Ok) (hL' : c.dataLay.Ok) (hi : Indep c) {M : List ℝ → Method ℝ ℝ}
    {icfg : Θ → Nat → Integrand.Cfg ℝ (Trip ℝ) (Par P R) (TDicts ℝ) ℝ R H D} {s0 : Integrand.St ℝ (Par P R) ℝ H D × (Nat → R × R)}
    {cfg : Block.Cfg ℝ ℝ Θ Rb} (hb : IsBlock c M icfg s0 cfg) (hu : s0.1.useRnn = false) (he : s0.1.external = false)
    {s : Block.St ℝ ℝ Θ} (hdd : DimOk c.dataLay s.dataDim) {w : Block.When ℝ} (hw : Block.Is s w)
    {n B : Nat} {q p : Fin n × K → ℝ} {x : Fin B × K' → ℝ} (hq : s.state = some (enc c.lay "" n q)) (hp : s.costate = some (enc c.lay "p_" n p))
    {X : Tensor ℝ} (hX : cfg.initialData X = .ok (enc c.dataLay "" B x)) {sh : List Nat} (hkey : (cfg.outKey, sh) ∈ c.dataLay.names) (r : Rb) (r0 : R) :
    Block.forward cfg r ⟨some X, none, none, none⟩ s =
      report c.lay c.dataLay cfg.name cfg.outKey sh s w (runSys (Evolution.field2 c.rhs c.dataRhs (modeOf c n r0)) (M w.times) [(q, p, x)]) :=
  forward_sim hL hL' hb hdd hw hq hp hX hkey r _ (run_plain hL hL' hi hb.dim hdd (hb.integrand _ _) cfg.name r0 (M w.times) [(q, p, x)] s0 hu he)

theorem indep_autodiff [Fintype K] [Fintype P] (L : Lay K) {f : Evolution.Class K P} (ha : ∀ n, Shooting.AffineInParams (f (Fin n))) (w : P → Option ℝ) :
    Indep (autodiffCls L f w) := by
  intro n r r' q p
  exact ⟨Shooting.C32_independent_of_initialisation (ha n) w r r' q p, costate_independent (ha n) w r r' q p⟩

theorem indep_rnn [Fintype K] [Fintype P] (L : Lay K) {f : Evolution.Class K P} (ha : ∀ n, Shooting.AffineInParams (f (Fin n))) (w : P → Option ℝ) :
    Indep (rnnCls L f w) := by
  intro n r r' q p
  have := Shooting.C32_independent_of_initialisation (ha n) w r r' q p
  exact ⟨this, by simp only [rnnCls, this]⟩

theorem indep_analytic [Fintype P] (L : Lay K) (f : Evolution.Class K P) (par : ∀ n, (Fin n × K → ℝ) → (Fin n × K → ℝ) → P → ℝ)
    (cost : ∀ n, (P → ℝ) → (Fin n × K → ℝ) → (Fin n × K → ℝ) → Fin n × K → ℝ) (w : P → Option ℝ) : Indep (analyticCls (R := R) L f par cost w) :=
  fun _ _ _ _ _ => ⟨rfl, rfl⟩

/-- C67 for automatic differentiation: the equations are those of `Verif.Evolution` (C51, C52), for any random numbers `ρ`.  Samples can have other coordinates than particles. -/
theorem C67_forward_sizes [Fintype K] [Fintype K'] [Fintype P] {L : Lay K} (hL : L.Ok) {L' : Lay K'} (hL' : L'.Ok) {f : Evolution.Class K P} (g : Evolution.Class K' P)
    (ha : ∀ n, Shooting.AffineInParams (f (Fin n))) (wt : P → Option ℝ)
    {M : List ℝ → Method ℝ ℝ} {icfg : Θ → Nat → Integrand.Cfg ℝ (Trip ℝ) (Par P (P → ℝ)) (TDicts ℝ) ℝ (P → ℝ) H D}
    {s0 : Integrand.St ℝ (Par P (P → ℝ)) ℝ H D × (Nat → (P → ℝ) × (P → ℝ))}
    {cfg : Block.Cfg ℝ ℝ Θ Rb} (hb : IsBlock ((autodiffCls L f wt).withData L' g) M icfg s0 cfg) (hu : s0.1.useRnn = false) (he : s0.1.external = false)
    {s : Block.St ℝ ℝ Θ} (hdd : DimOk L' s.dataDim) {w : Block.When ℝ} (hw : Block.Is s w)
    {n B : Nat} {q p : Fin n × K → ℝ} {x : Fin B × K' → ℝ} (hq : s.state = some (enc L "" n q)) (hp : s.costate = some (enc L "p_" n p))
    {X : Tensor ℝ} (hX : cfg.initialData X = .ok (enc L' "" B x)) {sh : List Nat} (hkey : (cfg.outKey, sh) ∈ L'.names) (r : Rb) (ρ : ℝ → (P → ℝ) × (P → ℝ)) :
    Block.forward cfg r ⟨some X, none, none, none⟩ s =
      report L L' cfg.name cfg.outKey sh s w (runSys (Evolution.field2 f g (Evolution.autodiff f wt ρ)) (M w.times) [(q, p, x)]) := by
  have h := C67_forward (c := (autodiffCls L f wt).withData L' g) hL hL' (indep_autodiff L ha wt) hb hu he hdd hw hq hp hX hkey r 0
  have e : (Evolution.field2 f g (modeOf (autodiffCls L f wt) n 0) : ℝ → Sys2 (Fin n) (Fin B) K K' → _) =
      Evolution.field2 f g (Evolution.autodiff f wt ρ) := by
    funext t z
    have h1 := indep_autodiff L ha wt n 0 (ρ t).1 z.1 z.2.1
    have h2 := costate_independent (ha n) wt 0 (ρ t).2 z.1 z.2.1
    unfold Evolution.field2 modeOf Evolution.autodiff
    simp only [h1.1]
    simp only [autodiffCls, h2]
  have h : _ = report L L' cfg.name cfg.outKey sh s w (runSys (Evolution.field2 f g (modeOf (autodiffCls L f wt) n 0)) (M w.times) [(q, p, x)]) := h
  rw [e] at h
  exact h

/-- C67 for automatic differentiation: the equations are those of `Verif.Evolution` (C51, C52), for any random numbers `ρ`; particles and samples with the same coordinates. -/
theorem C67_forward_autodiff [Fintype K] [Fintype P] {L : Lay K} (hL : L.Ok) {f : Evolution.Class K P} (ha : ∀ n, Shooting.AffineInParams (f (Fin n))) (wt : P → Option ℝ)
    {M : List ℝ → Method ℝ ℝ} {icfg : Θ → Nat → Integrand.Cfg ℝ (Trip ℝ) (Par P (P → ℝ)) (TDicts ℝ) ℝ (P → ℝ) H D}
    {s0 : Integrand.St ℝ (Par P (P → ℝ)) ℝ H D × (Nat → (P → ℝ) × (P → ℝ))}
    {cfg : Block.Cfg ℝ ℝ Θ Rb} (hb : IsBlock (autodiffCls L f wt) M icfg s0 cfg) (hu : s0.1.useRnn = false) (he : s0.1.external = false)
    {s : Block.St ℝ ℝ Θ} (hdd : DimOk L s.dataDim) {w : Block.When ℝ} (hw : Block.Is s w)
    {n B : Nat} {q p : Fin n × K → ℝ} {x : Fin B × K → ℝ} (hq : s.state = some (enc L "" n q)) (hp : s.costate = some (enc L "p_" n p))
    {X : Tensor ℝ} (hX : cfg.initialData X = .ok (enc L "" B x)) {sh : List Nat} (hkey : (cfg.outKey, sh) ∈ L.names) (r : Rb) (ρ : ℝ → (P → ℝ) × (P → ℝ)) :
    Block.forward cfg r ⟨some X, none, none, none⟩ s =
      report L L cfg.name cfg.outKey sh s w (runSys (Evolution.field f (Evolution.autodiff f wt ρ)) (M w.times) [(q, p, x)]) :=
  C67_forward_sizes hL hL f ha wt hb hu he hdd hw hq hp hX hkey r ρ

/-- C67 for the hand-written formulas. -/
theorem C67_forward_analytic [Fintype K] [Fintype P] {L : Lay K} (hL : L.Ok) (f : Evolution.Class K P) (par : ∀ n, (Fin n × K → ℝ) → (Fin n × K → ℝ) → P → ℝ)
    (cost : ∀ n, (P → ℝ) → (Fin n × K → ℝ) → (Fin n × K → ℝ) → Fin n × K → ℝ) (wt : P → Option ℝ)
    {M : List ℝ → Method ℝ ℝ} {icfg : Θ → Nat → Integrand.Cfg ℝ (Trip ℝ) (Par P R) (TDicts ℝ) ℝ R H D}
    {s0 : Integrand.St ℝ (Par P R) ℝ H D × (Nat → R × R)}
    {cfg : Block.Cfg ℝ ℝ Θ Rb} (hb : IsBlock (analyticCls L f par cost wt) M icfg s0 cfg) (hu : s0.1.useRnn = false) (he : s0.1.external = false)
    {s : Block.St ℝ ℝ Θ} (hdd : DimOk L s.dataDim) {w : Block.When ℝ} (hw : Block.Is s w)
    {n B : Nat} {q p : Fin n × K → ℝ} {x : Fin B × K → ℝ} (hq : s.state = some (enc L "" n q)) (hp : s.costate = some (enc L "p_" n p))
    {X : Tensor ℝ} (hX : cfg.initialData X = .ok (enc L "" B x)) {sh : List Nat} (hkey : (cfg.outKey, sh) ∈ L.names) (r : Rb) :
    Block.forward cfg r ⟨some X, none, none, none⟩ s =
      report L L cfg.name cfg.outKey sh s w (runSys (Evolution.field f (Evolution.analytic (par n) (cost n) wt)) (M w.times) [(q, p, x)]) :=
  C67_forward (c := analyticCls L f par cost wt) hL hL (indep_analytic L f par cost wt) hb hu he hdd hw hq hp hX hkey r (s0.2 0).1

/-! ## RNN mode -/

/-- The evaluations of a run in RNN mode that has not computed its parameters yet. -/
theorem run_rnn [Fintype K] [Fintype K'] {c : Cls K K' P R} (hL : c.lay.Ok) (hL' : c.dataLay.Ok) {dim dataDim : Nat} (hd : DimOk c.lay dim) (hdd : DimOk c.dataLay dataDim)
    {cfg : Integrand.Cfg ℝ (Trip ℝ) (Par P R) (TDicts ℝ) ℝ R H D} (hc : IsCfg c dim dataDim cfg) (nm : String) {n B : Nat} (M : Method ℝ ℝ) :
    ∀ (zs : List (Sys2 (Fin n) (Fin B) K K')) (s : Integrand.St ℝ (Par P R) ℝ H D × (Nat → R × R)) (θ : Par P R), s.1.useRnn = true → s.1.external = false →
      s.1.cache = none → (∀ z, firstEval M zs = some z → θ = (c.par n (s.2 0).1 z.1 z.2.1, (s.2 0).1)) →
      ∃ s', runDict (plansOf c.lay c.dataLay nm n B) (ofIntegrand cfg) M (zs.map (trip c.lay c.dataLay nm)) s
        = (runSys (Evolution.field2 c.rhs c.dataRhs (modeAt c n θ)) M zs).map fun ys => (ys.map (trip c.lay c.dataLay nm), s') := by
  induction M with
  | done outs =>
    intro zs s θ hu he hn hθ
    refine ⟨s, ?_⟩
    unfold runDict runSys
    simp only [pointwise3_trip nm hL hL', Except.map, List.map_map]
    rfl
  | fail e => intro zs s θ hu he hn hθ; exact ⟨s, rfl⟩
  | eval t g next ih =>
    intro zs s θ hu he hn hθ
    have hθ := hθ _ rfl
    obtain ⟨s1, h1, hu1, he1, hc1, _⟩ := eval_cached hL hL' hd hdd hc nm t (combine g zs) s hu he θ (.inr ⟨hn, hθ⟩)
    obtain ⟨s2, h2, _⟩ := run_sim hL hL' nm (n := n) (B := B) (ofIntegrand cfg) (Evolution.field2 c.rhs c.dataRhs (modeAt c n θ))
      (fun s => s.1.useRnn = true ∧ s.1.external = false ∧ s.1.cache = some θ)
      (fun t z s hs => by
        obtain ⟨s', h1, h2, h3, h4, _⟩ := eval_cached hL hL' hd hdd hc nm t z s hs.1 hs.2.1 θ (.inl hs.2.2)
        exact ⟨s', h1, h2, h3, h4⟩) next (zs ++ [Evolution.field2 c.rhs c.dataRhs (modeAt c n θ) t (combine g zs)]) s1 ⟨hu1, he1, hc1⟩
    refine ⟨s2, ?_⟩
    unfold runDict runSys
    rw [pointwise3_trip nm hL hL', h1, ← h2]
    simp only [List.map_append, List.map_cons, List.map_nil, dotTrip_eq, undotted3_dotted3]
    rfl
  | test q next ih =>
    intro zs s θ hu he hn hθ
    obtain ⟨s2, h2⟩ := ih (sumAll (combine q zs)) zs s θ hu he hn hθ
    refine ⟨s2, ?_⟩
    unfold runDict runSys
    rw [pointwise3_trip nm hL hL', total_trip nm hL hL']
    exact h2

/-- C67 in RNN mode: the parameters are computed at the first evaluation and then stay the same; with them the method is applied to the equations coordinate by
coordinate. -/
theorem C67_forward_rnn [Fintype K] [Fintype K'] {c : Cls K K' P R} (hL : c.lay.Ok) (hL' : c.dataLay.Ok) {M : List ℝ → Method ℝ ℝ}
    {icfg : Θ → Nat → Integrand.Cfg ℝ (Trip ℝ) (Par P R) (TDicts ℝ) ℝ R H D} {s0 : Integrand.St ℝ (Par P R) ℝ H D × (Nat → R × R)}
    {cfg : Block.Cfg ℝ ℝ Θ Rb} (hb : IsBlock c M icfg s0 cfg) (hu : s0.1.useRnn = true) (he : s0.1.external = false) (hn : s0.1.cache = none)
    {s : Block.St ℝ ℝ Θ} (hdd : DimOk c.dataLay s.dataDim) {w : Block.When ℝ} (hw : Block.Is s w)
    {n B : Nat} {q p : Fin n × K → ℝ} {x : Fin B × K' → ℝ} (hq : s.state = some (enc c.lay "" n q)) (hp : s.costate = some (enc c.lay "p_" n p))
    {X : Tensor ℝ} (hX : cfg.initialData X = .ok (enc c.dataLay "" B x)) {sh : List Nat} (hkey : (cfg.outKey, sh) ∈ c.dataLay.names) (r : Rb) (θ : Par P R)
    (hθ : ∀ z, firstEval (M w.times) [(q, p, x)] = some z → θ = (c.par n (s0.2 0).1 z.1 z.2.1, (s0.2 0).1)) :
    Block.forward cfg r ⟨some X, none, none, none⟩ s =
      report c.lay c.dataLay cfg.name cfg.outKey sh s w (runSys (Evolution.field2 c.rhs c.dataRhs (modeAt c n θ)) (M w.times) [(q, p, x)]) :=
  forward_sim hL hL' hb hdd hw hq hp hX hkey r _ (run_rnn hL hL' hb.dim hdd (hb.integrand _ _) cfg.name (M w.times) [(q, p, x)] s0 θ hu he hn hθ)

/-- C67: the equations of RNN mode with automatic differentiation are those for given parameters, and at the state where the parameters were computed the derivative of the costate
is the one that takes the dependence of the parameters on the state into account. -/
theorem C67_rnn_equations [Fintype K] [Fintype P] (L : Lay K) {f : Evolution.Class K P} (w : P → Option ℝ) (n : Nat) (θ : Par P (P → ℝ)) :
    modeAt (rnnCls L f w) n θ = Evolution.given f w (fun _ => θ.1) ∧
    (0 < n → Shooting.AffineInParams (f (Fin n)) → (∀ r, Shooting.weight w r ≠ 0) → ∀ r q p, (∀ θ j, DifferentiableAt ℝ (fun q' => f (Fin n) θ q' j) q) →
      (rnnCls L f w).cost n (Shooting.directParameters (f (Fin n)) w r q p) r q p = (autodiffCls L f w).cost n (Shooting.directParameters (f (Fin n)) w r q p) r q p) := by
  refine ⟨rfl, fun hn ha hw r q p hd => ?_⟩
  have : Nonempty (Fin n) := ⟨⟨0, hn⟩⟩
  have hg := Shooting.HasGrad.sum (F := fun j q' => p j * f (Fin n) (Shooting.directParameters (f (Fin n)) w r q p) q' j) fun j =>
      (Shooting.hasGrad_of_differentiableAt (hd (Shooting.directParameters (f (Fin n)) w r q p) j)).const_mul (p j)
  exact (Shooting.C34_fixed_parameters (f (Fin n)) w _ q p (hd _) hg).trans (Shooting.C34_costate_gradient ha w hw r q p hd hg).2.symm

/-! ## The elements of the output -/

/-- C67: the output tensor, element by element: sample `b`, coordinate `k`. -/
theorem C67_output (L : Lay K) {L' : Lay K'} (hL' : L'.Ok) (nm : String) {key : String} {sh : List Nat} (hkey : (key, sh) ∈ L'.names) {n B : Nat} (b : Fin B) (k : K') (hk : L'.key k = key) :
    (∀ y : Sys2 (Fin n) (Fin B) K K', ∃ t, (outEnd L L' nm key sh y).result = .tensor t ∧ t.shape = B :: sh ∧ t.get? (b.1 :: L'.idx k) = some (y.2.2 (b, k))) ∧
    (∀ ys : List (Sys2 (Fin n) (Fin B) K K'), ∃ t, (outTimes L L' nm key sh ys).result = .tensor t ∧ t.shape = ys.length :: B :: sh ∧
      ∀ (i : Nat) (h : i < ys.length), t.get? (i :: b.1 :: L'.idx k) = some (ys[i].2.2 (b, k))) := by
  obtain ⟨s, hs, hv, hc⟩ := hL'.into k
  rw [hk] at hs hc
  have e : s = sh := by
    have h1 := (SDict.get?_eq_some_iff hL'.sorted).2 hs
    have h2 := (SDict.get?_eq_some_iff hL'.sorted).2 hkey
    rw [h1] at h2
    exact Option.some.inj h2
  subst e
  refine ⟨fun y => ⟨_, rfl, rfl, ?_⟩, fun ys => ⟨_, rfl, rfl, fun i h => ?_⟩⟩
  · rw [get?_tab (.cons b.2 hv), value_coord _ hc]
  · rw [get?_tab (.cons h (.cons b.2 hv))]
    simp [h, value_coord _ hc]

end Verif.Whole
