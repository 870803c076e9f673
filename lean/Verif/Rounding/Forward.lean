import Verif.Rounding.Props

/-!
# C96: forward passes
-/

namespace Verif.Rounding
open Set Verif Verif.Tensor Verif.Assembly Verif.Flow Verif.Whole Verif.Evolution Verif.Models Verif.Shooting Verif.Converge Verif.Order

variable {K K' P R H D Θ Rb : Type}

/-- The integration inside a block when the solver returns the vectors of known dictionaries. -/
theorem integrate_rows {L : Lay K} (hL : L.Ok) {L' : Lay K'} (hL' : L'.Ok) (nm : String) {cfg : Block.Cfg ℝ ℝ Θ Rb} {s : Block.St ℝ ℝ Θ} {w : Block.When ℝ} (hw : Block.Is s w) {n B : Nat}
    {z : Sys2 (Fin n) (Fin B) K K'} {Ys : List (Sys2 (Fin n) (Fin B) K K')}
    (hsolve : cfg.solve s.theta s.dataDim (plansOf L L' nm n B) (vec (trip L L' nm z)) w.times = .ok (some (Ys.map fun Y => vec (trip L L' nm Y)))) :
    Block.integrate cfg (vec (trip L L' nm z)) (plansOf L L' nm n B) s =
      match w with
      | .upTo _ => match Ys.getLast? with
        | none => .error .indexError
        | some Y => .ok (trip L L' nm Y)
      | .vector _ => .ok (stack3 (plansOf L L' nm n B) (Ys.map (trip L L' nm))) := by
  have hp := full_plans hL hL' nm n B
  have hl := fun Y : Sys2 (Fin n) (Fin B) K K' => trip_layout hL hL' nm Y
  cases w with
  | upTo t =>
    unfold Block.integrate
    rw [hw.1, hw.2]
    dsimp only
    have hsolve' : cfg.solve s.theta s.dataDim (plansOf L L' nm n B) (vec (trip L L' nm z)) [0, t] = _ := hsolve
    rw [hsolve']
    simp only [bind, Except.bind, List.getLast?_map]
    cases Ys.getLast? with
    | none => rfl
    | some Y =>
      simp only [Option.map_some]
      exact disassemble_layout hp (hl Y)
  | vector v =>
    unfold Block.integrate
    rw [hw.2]
    dsimp only
    have hsolve' : cfg.solve s.theta s.dataDim (plansOf L L' nm n B) (vec (trip L L' nm z)) v = _ := hsolve
    rw [hsolve']
    simp only [bind, Except.bind]
    rw [vec_length (hl z)]
    have := disassemble_stack hp (Ys.map (trip L L' nm)) (by
      intro y hy
      obtain ⟨Y, _, rfl⟩ := List.mem_map.1 hy
      exact hl Y)
    rw [List.map_map] at this
    exact this

/-- A forward pass whose solver returns the vectors of known dictionaries. -/
theorem forward_rows [Fintype K] [Fintype K'] {L : Lay K} (hL : L.Ok) {L' : Lay K'} (hL' : L'.Ok) {cfg : Block.Cfg ℝ ℝ Θ Rb} (hcat : cfg.concatenate = true) {s : Block.St ℝ ℝ Θ} {w : Block.When ℝ}
    (hw : Block.Is s w) {n B : Nat} {z : Sys2 (Fin n) (Fin B) K K'} (hq : s.state = some (enc L "" n z.1)) (hp : s.costate = some (enc L "p_" n z.2.1)) {X : Tensor ℝ}
    (hX : cfg.initialData X = .ok (enc L' "" B z.2.2)) {sh : List Nat} (hkey : (cfg.outKey, sh) ∈ L'.names) (r : Rb) {Ys : List (Sys2 (Fin n) (Fin B) K K')}
    (hsolve : cfg.solve s.theta s.dataDim (plansOf L L' cfg.name n B) (vec (trip L L' cfg.name z)) w.times = .ok (some (Ys.map fun Y => vec (trip L L' cfg.name Y)))) :
    Block.forward cfg r ⟨some X, none, none, none⟩ s = report L L' cfg.name cfg.outKey sh s w (.ok Ys) := by
  rw [forward_prepare, prepare_first cfg r X s hq hp hX]
  dsimp only
  have ha := assemble_layout (full_plans hL hL' cfg.name n B) (trip_layout hL hL' cfg.name z)
  have ha' : assembleTensor [(cfg.name, enc L "" n z.1)] [(cfg.name, enc L "p_" n z.2.1)] [(cfg.name, enc L' "" B z.2.2)] = .ok (vec (trip L L' cfg.name z), plansOf L L' cfg.name n B) := ha
  rw [ha']
  dsimp only
  rw [integrate_rows hL hL' cfg.name hw hsolve]
  unfold report
  cases w with
  | upTo t =>
    simp only [bind, Except.bind]
    cases hl : Ys.getLast? with
    | none => rfl
    | some y =>
      dsimp only
      have := finish_single cfg hcat s.dataDim cfg.name (enc_sorted hL "" n y.1) (enc_sorted hL "p_" n y.2.1) (enc_sorted hL' "" B y.2.2)
        (t := tab (B :: sh) (value L' B y.2.2 cfg.outKey)) (by simpa using enc_get? hL' "" B y.2.2 hkey)
      unfold trip
      rw [this]
      rfl
  | vector v =>
    simp only [bind, Except.bind]
    rw [stack_trips _ hL hL']
    have := finish_single cfg hcat s.dataDim cfg.name (encTimes_sorted hL "" n (Ys.map fun y => y.1)) (encTimes_sorted hL "p_" n (Ys.map fun y => y.2.1))
      (encTimes_sorted hL' "" B (Ys.map fun y => y.2.2)) (get?_encTimes hL' B (Ys.map fun y => y.2.2) hkey)
    rw [this]
    simp only [outTimes, List.length_map, List.getElem?_map, Option.map_map, Function.comp_def]

/-- The solver of a block computes, for the initial value `z` and the given times, with errors: `δ` in the values of the right-hand side `fld`, `ρ` in every other vector.  It is given the vector
into which the block has assembled its dictionaries and returns one vector for each time. -/
def Computes [Fintype K] [Fintype K'] (L : Lay K) (L' : Lay K') {n B : Nat} (T : Tableau) (grid : List ℝ) (fld : ℝ → Sys2 (Fin n) (Fin B) K K' → Sys2 (Fin n) (Fin B) K K') (δ ρ : ℝ)
    (z : Sys2 (Fin n) (Fin B) K K') (cfg : Block.Cfg ℝ ℝ Θ Rb) (s : Block.St ℝ ℝ Θ) (times : List ℝ) : Prop :=
  ∃ Ys, cfg.solve s.theta s.dataDim (plansOf L L' cfg.name n B) (vec (trip L L' cfg.name z)) times = .ok (some (Ys.map fun Y => vec (trip L L' cfg.name Y))) ∧ RoundedRun T fld δ ρ z grid times Ys

variable [Fintype K] [Fintype K'] [Fintype P]

omit [Fintype P] in
/-- C96: the solver of a block of the model computes without errors. -/
theorem C96_block {c : Cls K K' P R} (hL : c.lay.Ok) (hL' : c.dataLay.Ok) (hi : Indep c) {T : Tableau} {G : List ℝ → List ℝ} {icfg : Θ → Nat → Integrand.Cfg ℝ (Trip ℝ) (Par P R) (TDicts ℝ) ℝ R H D}
    {s0 : Integrand.St ℝ (Par P R) ℝ H D × (Nat → R × R)} {cfg : Block.Cfg ℝ ℝ Θ Rb} (hb : IsBlock c (solver T G) icfg s0 cfg) (hu : s0.1.useRnn = false) (he : s0.1.external = false)
    (s : Block.St ℝ ℝ Θ) (hdd : DimOk c.dataLay s.dataDim) {h a : ℝ} {ts : List ℝ} (hinc : (a :: ts).Pairwise (· < ·)) (hg : Suits h G a ts) {n B : Nat} (r0 : R) (z : Sys2 (Fin n) (Fin B) K K') :
    Computes c.lay c.dataLay T (G (a :: ts)) (Evolution.field2 c.rhs c.dataRhs (modeOf c n r0)) 0 0 z cfg s (a :: ts) := by
  obtain ⟨g, hg1, hg2, hm⟩ := hg
  have hrun := run_solver (Evolution.field2 c.rhs c.dataRhs (modeOf c n r0)) T G a ts g z ((increasing_iff _).2 hinc) hg1 hg2
  refine ⟨_, ?_, (C96_exact_steps hinc ⟨g, hg1, hg2, hm⟩ z _).2 hrun⟩
  obtain ⟨s', h1⟩ := run_plain hL hL' hi hb.dim hdd (hb.integrand s.theta s.dataDim) cfg.name r0 (solver T G (a :: ts)) [z] s0 hu he
  rw [hrun] at h1
  have hlay := trip_layout hL hL' cfg.name z
  have h2 := (run_eq (full_plans hL hL' cfg.name n B) (keeps_layout hL hL' hb.dim hdd (hb.integrand s.theta s.dataDim) cfg.name n B) (solver T G (a :: ts)) [trip c.lay c.dataLay cfg.name z]
    (by simpa using hlay) s0).1
  rw [List.map_singleton] at h1
  rw [h1, List.map_singleton] at h2
  rw [hb.solve]
  unfold solveWith
  rw [vec_length hlay, h2]
  simp [Except.map, bind, Except.bind]

omit [Fintype P] in
/-- C96: a forward pass whose solver makes errors returns the data of the exact solution of its equations `fld` up to a constant times `h ^ p + δ + ρ ·` (number of grid points) if the requested times belong to
the grid, and with `h ^ 2` in addition otherwise; the constant depends on the equations, the solution and the method, not on the step size, the errors, the requested times or the block. -/
theorem C96_forward {L : Lay K} (hL : L.Ok) {L' : Lay K'} (hL' : L'.Ok) {n B : Nat} {fld : ℝ → Sys2 (Fin n) (Fin B) K K' → Sys2 (Fin n) (Fin B) K K'}
    (hf : ContDiff ℝ 5 fun z : ℝ × Sys2 (Fin n) (Fin B) K K' => fld z.1 z.2) {T : Tableau} {p : ℕ} (hT : HasOrder T p) {a b : ℝ}
    {y : ℝ → Sys2 (Fin n) (Fin B) K K'} (hy : Solves fld a b y) :
    ∃ C h₀ r₀ : ℝ, 0 ≤ C ∧ 0 < h₀ ∧ 0 < r₀ ∧ ∀ h, 0 < h → h ≤ h₀ → ∀ (G : List ℝ → List ℝ) (ts : List ℝ),
      (a :: ts).Pairwise (· < ·) → (∀ τ ∈ a :: ts, τ ≤ b) → Suits h G a ts → ∀ δ ρ, 0 ≤ δ → δ ≤ r₀ → 0 ≤ ρ → ((G (a :: ts)).length : ℝ) * ρ ≤ r₀ →
      ∀ (cfg : Block.Cfg ℝ ℝ Θ Rb) (s : Block.St ℝ ℝ Θ) (w : Block.When ℝ), cfg.concatenate = true → (∃ sh, (cfg.outKey, sh) ∈ L'.names) → Block.Is s w → w.times = a :: ts →
      s.state = some (enc L "" n (y a).1) → s.costate = some (enc L "p_" n (y a).2.1) →
      Computes L L' T (G (a :: ts)) fld δ ρ (y a) cfg s (a :: ts) →
      ∀ X : Tensor ℝ, cfg.initialData X = .ok (enc L' "" B (y a).2.2) → ∀ r,
      ∃ o t, (Block.forward cfg r ⟨some X, none, none, none⟩ s).2 = .ok o ∧ o.result = .tensor t ∧
        Near (L := L') cfg.outKey (C * (h ^ p + h ^ 2 + δ + (G (a :: ts)).length * ρ)) y t w ∧
        ((∀ τ ∈ a :: ts, τ ∈ G (a :: ts)) → Near (L := L') cfg.outKey (C * (h ^ p + δ + (G (a :: ts)).length * ρ)) y t w) := by
  obtain ⟨C, h₀, r₀, hC, hh, hr, key⟩ := C96_converge hf hT hy
  refine ⟨C, h₀, r₀, hC, hh, hr, fun h h0 hle G ts hi hts hg δ ρ hδ hδ0 hρ hρ0 cfg s w hcat ⟨sh, hkey⟩ hw hwt hq hp ⟨Ys, hsolve, hrun⟩ X hX r => ?_⟩
  have H := key h h0 hle G ts hi hts hg δ ρ hδ hδ0 hρ hρ0 Ys hrun
  rw [← hwt] at hsolve
  rw [forward_rows hL hL' hcat hw hq hp hX hkey r hsolve]
  obtain ⟨o, t, h1, h2, h3⟩ := report_near L hL' cfg.name hkey s w hwt (H.imp fun _ _ h => h.1)
  refine ⟨o, t, h1, h2, h3, fun hall => ?_⟩
  have hr' : List.Forall₂ (fun Y τ => ‖Y - y τ‖ ≤ C * (h ^ p + δ + (G (a :: ts)).length * ρ)) Ys (a :: ts) := by
    rw [List.forall₂_iff_get] at H ⊢
    exact ⟨H.1, fun i hi hi' => (H.2 i hi hi').2 (hall _ (List.get_mem _ _))⟩
  obtain ⟨o', t', h1', h2', h3'⟩ := report_near L hL' cfg.name hkey s w hwt hr'
  rw [h1] at h1'
  obtain rfl := Except.ok.inj h1'
  rw [h2] at h2'
  obtain rfl := Block.Result.tensor.inj h2'
  exact h3'

/-- C96 for automatic differentiation: for a regular smooth class, positive weights and at least one particle there is an exact solution from the given particles, costates and data, and forward passes with
errors are this close to it. -/
theorem C96_forward_autodiff {L : Lay K} (hL : L.Ok) {L' : Lay K'} (hL' : L'.Ok) {f : Class K P} (hf : Regular f) (hsf : Smooth f) {g : Class K' P} (hg : Regular g) (hsg : Smooth g) (wt : P → Option ℝ)
    (hw : ∀ r, 0 < weight wt r) {n B : Nat} (hn : 0 < n) (q p : Fin n × K → ℝ) (x : Fin B × K' → ℝ) {T : Tableau} {m : ℕ} (hT : HasOrder T m) {a b : ℝ} (hab : a ≤ b) :
    ∃ y : ℝ → Sys2 (Fin n) (Fin B) K K', Solves (Evolution.field2 f g (Evolution.autodiff f wt fun _ => (0, 0))) a b y ∧ y a = (q, p, x) ∧
    ∃ C h₀ r₀ : ℝ, 0 ≤ C ∧ 0 < h₀ ∧ 0 < r₀ ∧ ∀ h, 0 < h → h ≤ h₀ → ∀ (G : List ℝ → List ℝ) (ts : List ℝ),
      (a :: ts).Pairwise (· < ·) → (∀ τ ∈ a :: ts, τ ≤ b) → Suits h G a ts → ∀ δ ρ, 0 ≤ δ → δ ≤ r₀ → 0 ≤ ρ → ((G (a :: ts)).length : ℝ) * ρ ≤ r₀ →
      ∀ (cfg : Block.Cfg ℝ ℝ Θ Rb) (s : Block.St ℝ ℝ Θ) (w : Block.When ℝ), cfg.concatenate = true → (∃ sh, (cfg.outKey, sh) ∈ L'.names) → Block.Is s w → w.times = a :: ts →
      s.state = some (enc L "" n q) → s.costate = some (enc L "p_" n p) →
      Computes L L' T (G (a :: ts)) (Evolution.field2 f g (Evolution.autodiff f wt fun _ => (0, 0))) δ ρ (q, p, x) cfg s (a :: ts) →
      ∀ X : Tensor ℝ, cfg.initialData X = .ok (enc L' "" B x) → ∀ r,
      ∃ o t, (Block.forward cfg r ⟨some X, none, none, none⟩ s).2 = .ok o ∧ o.result = .tensor t ∧
        Near (L := L') cfg.outKey (C * (h ^ m + h ^ 2 + δ + (G (a :: ts)).length * ρ)) y t w ∧
        ((∀ τ ∈ a :: ts, τ ∈ G (a :: ts)) → Near (L := L') cfg.outKey (C * (h ^ m + δ + (G (a :: ts)).length * ρ)) y t w) := by
  have : Nonempty (Fin n) := ⟨⟨0, hn⟩⟩
  obtain ⟨y, hy, hya, _⟩ := C69_global_sizes (β := Fin B) hf hg wt hw (fun _ => (0, 0)) hab (q, p, x)
  refine ⟨y, hy, hya, ?_⟩
  have hC := contDiff_autodiff (ι := Fin n) (β := Fin B) (n := 5) (hf.linear _).affine (smooth_five hsf _) (hg.linear _).affine (smooth_five hsg _).less wt (fun r => (hw r).ne') fun _ => (0, 0)
  obtain ⟨C, h₀, r₀, h1, h2, h3, key⟩ := C96_forward (Θ := Θ) (Rb := Rb) hL hL' hC hT hy
  refine ⟨C, h₀, r₀, h1, h2, h3, fun h hh hle G ts hinc hts hgr δ ρ hδ hδ0 hρ hρ0 cfg s w hcat hkey hwi hwt hq hp hc X hX r => ?_⟩
  exact key h hh hle G ts hinc hts hgr δ ρ hδ hδ0 hρ hρ0 cfg s w hcat hkey hwi hwt (by rw [hya]; exact hq) (by rw [hya]; exact hp) (by rw [hya]; exact hc) X (by rw [hya]; exact hX) r

/-- C96 in RNN mode: the parameters are computed once, at the initial particles and costates.  If they are computed with an error, the values of the right-hand side are off in addition: `δ` covers that. -/
theorem C96_forward_rnn {L : Lay K} (hL : L.Ok) {L' : Lay K'} (hL' : L'.Ok) {f : Class K P} (hf : Regular f) (hsf : Smooth f) {g : Class K' P} (hg : Regular g) (hsg : Smooth g) (wt : P → Option ℝ)
    {n B : Nat} (hn : 0 < n) (q p : Fin n × K → ℝ) (x : Fin B × K' → ℝ) {T : Tableau} {m : ℕ} (hT : HasOrder T m) {a b : ℝ} (hab : a ≤ b) :
    ∃ y : ℝ → Sys2 (Fin n) (Fin B) K K', Solves (Evolution.field2 f g (Evolution.given f wt fun _ => directParameters (f (Fin n)) wt 0 q p)) a b y ∧ y a = (q, p, x) ∧
    ∃ C h₀ r₀ : ℝ, 0 ≤ C ∧ 0 < h₀ ∧ 0 < r₀ ∧ ∀ h, 0 < h → h ≤ h₀ → ∀ (G : List ℝ → List ℝ) (ts : List ℝ),
      (a :: ts).Pairwise (· < ·) → (∀ τ ∈ a :: ts, τ ≤ b) → Suits h G a ts → ∀ δ ρ, 0 ≤ δ → δ ≤ r₀ → 0 ≤ ρ → ((G (a :: ts)).length : ℝ) * ρ ≤ r₀ →
      ∀ (cfg : Block.Cfg ℝ ℝ Θ Rb) (s : Block.St ℝ ℝ Θ) (w : Block.When ℝ), cfg.concatenate = true → (∃ sh, (cfg.outKey, sh) ∈ L'.names) → Block.Is s w → w.times = a :: ts →
      s.state = some (enc L "" n q) → s.costate = some (enc L "p_" n p) →
      Computes L L' T (G (a :: ts)) (Evolution.field2 f g (Evolution.given f wt fun _ => directParameters (f (Fin n)) wt 0 q p)) δ ρ (q, p, x) cfg s (a :: ts) →
      ∀ X : Tensor ℝ, cfg.initialData X = .ok (enc L' "" B x) → ∀ r,
      ∃ o t, (Block.forward cfg r ⟨some X, none, none, none⟩ s).2 = .ok o ∧ o.result = .tensor t ∧
        Near (L := L') cfg.outKey (C * (h ^ m + h ^ 2 + δ + (G (a :: ts)).length * ρ)) y t w ∧
        ((∀ τ ∈ a :: ts, τ ∈ G (a :: ts)) → Near (L := L') cfg.outKey (C * (h ^ m + δ + (G (a :: ts)).length * ρ)) y t w) := by
  have : Nonempty (Fin n) := ⟨⟨0, hn⟩⟩
  obtain ⟨y, hy, hya, _⟩ := C69_global_rnn_sizes (β := Fin B) hf hg wt (directParameters (f (Fin n)) wt 0 q p) hab (q, p, x)
  refine ⟨y, hy, hya, ?_⟩
  have hC := contDiff_given (ι := Fin n) (β := Fin B) (n := 5) (hf.linear _).affine (smooth_five hsf _) (hg.linear _).affine (smooth_five hsg _).less wt
    (contDiff_const (c := directParameters (f (Fin n)) wt 0 q p) : ContDiff ℝ (5 : ℕ) fun _ : ℝ => directParameters (f (Fin n)) wt 0 q p)
  obtain ⟨C, h₀, r₀, h1, h2, h3, key⟩ := C96_forward (Θ := Θ) (Rb := Rb) hL hL' hC hT hy
  refine ⟨C, h₀, r₀, h1, h2, h3, fun h hh hle G ts hinc hts hgr δ ρ hδ hδ0 hρ hρ0 cfg s w hcat hkey hwi hwt hq hp hc X hX r => ?_⟩
  exact key h hh hle G ts hinc hts hgr δ ρ hδ hδ0 hρ hρ0 cfg s w hcat hkey hwi hwt (by rw [hya]; exact hq) (by rw [hya]; exact hp) (by rw [hya]; exact hc) X (by rw [hya]; exact hX) r

end Verif.Rounding
