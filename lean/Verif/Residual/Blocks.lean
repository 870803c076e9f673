import Verif.Residual.Widen

/-!
# The blocks of a residual network
-/

namespace Verif.Residual
open Verif Verif.Tensor Verif.Assembly Verif.Whole Verif.Evolution Verif.Flow Verif.Later

variable {K K' Kp Kp' Kq Ko Ko' P R Θ Rb : Type}

/-- A block of class `c` with an integration time, in one of the two modes: `fld` are its equations (in RNN mode they depend on the values at the start) and `m` is its method.  With several blocks side by side
(`several`) the hand-written formulas cannot be used (C79). -/
inductive Solves [Fintype K] [Fintype K'] (several : Bool) (c : Cls K K' P R) (cfg : Block.Cfg ℝ ℝ Θ Rb) (s : Block.St ℝ ℝ Θ) (n : Nat) :
    (∀ B, Sys2 (Fin n) (Fin B) K K' → ℝ → Sys2 (Fin n) (Fin B) K K' → Sys2 (Fin n) (Fin B) K K') → Method ℝ ℝ → Prop
  | plain {H D : Type} (hi : Indep c) {M : List ℝ → Method ℝ ℝ} {icfg : Θ → Nat → Integrand.Cfg ℝ (Trip ℝ) (Par P R) (TDicts ℝ) ℝ R H D} {s0 : Integrand.St ℝ (Par P R) ℝ H D × (Nat → R × R)}
      (hb : IsBlock c M icfg s0 cfg) (ha : several = true → ∀ th dd, (icfg th dd).analytic = false) (hu : s0.1.useRnn = false) (he : s0.1.external = false) {t : ℝ} (hw : Block.Is s (.upTo t)) (r0 : R) :
      Solves several c cfg s n (fun _ _ => Evolution.field2 c.rhs c.dataRhs (modeOf c n r0)) (M [0, t])
  | rnn {H D : Type} {M : List ℝ → Method ℝ ℝ} {icfg : Θ → Nat → Integrand.Cfg ℝ (Trip ℝ) (Par P R) (TDicts ℝ) ℝ R H D} {s0 : Integrand.St ℝ (Par P R) ℝ H D × (Nat → R × R)}
      (hb : IsBlock c M icfg s0 cfg) (ha : several = true → ∀ th dd, (icfg th dd).analytic = false) (hu : s0.1.useRnn = true) (he : s0.1.external = false) (hn : s0.1.cache = none) {t : ℝ} (hw : Block.Is s (.upTo t)) :
      Solves several c cfg s n (fun _ z => Evolution.field2 c.rhs c.dataRhs (modeAt c n (kept c (s0.2 0).1 (M [0, t]) z))) (M [0, t])

theorem Solves.same [Fintype K] [Fintype K'] {several : Bool} {c : Cls K K' P R} {cfg : Block.Cfg ℝ ℝ Θ Rb} {s s' : Block.St ℝ ℝ Θ} {n : Nat}
    {fld : ∀ B, Sys2 (Fin n) (Fin B) K K' → ℝ → Sys2 (Fin n) (Fin B) K K' → Sys2 (Fin n) (Fin B) K K'} {m : Method ℝ ℝ} (h : Solves several c cfg s n fld m)
    (h1 : s'.time = s.time) (h2 : s'.timeVector = s.timeVector) : Solves several c cfg s' n fld m := by
  have hw' : ∀ t, Block.Is s (.upTo t) → Block.Is s' (.upTo t) := fun t hw => ⟨h1.trans hw.1, h2.trans hw.2⟩
  cases h with
  | plain hi hb ha hu he hw r0 => exact .plain hi hb ha hu he (hw' _ hw) r0
  | rnn hb ha hu he hn hw => exact .rnn hb ha hu he hn (hw' _ hw)

/-- The end of a forward pass with an integration time. -/
noncomputable def ends (L : Lay K) (L' : Lay K') (nm key : String) (sh : List Nat) (s : Block.St ℝ ℝ Θ) {n B : Nat} (y : Py (Sys2 (Fin n) (Fin B) K K')) : Block.St ℝ ℝ Θ × Py (Block.Out ℝ) :=
  match y with
  | .error e => (s, .error e)
  | .ok y => ({ s with notYet := false }, .ok (outEnd L L' nm key sh y))

theorem report_ends (L : Lay K) (L' : Lay K') (nm key : String) (sh : List Nat) (s : Block.St ℝ ℝ Θ) (t : ℝ) {n B : Nat} (ys : Py (List (Sys2 (Fin n) (Fin B) K K'))) :
    report L L' nm key sh s (.upTo t) ys = ends L L' nm key sh s (last ys) := by
  cases ys with
  | error e => rfl
  | ok ys =>
    unfold report last
    dsimp only
    cases ys.getLast? <;> rfl

theorem kept_spec [Fintype K] [Fintype K'] (c : Cls K K' P R) {n B : Nat} (r : R) (M : Method ℝ ℝ) (z w : Sys2 (Fin n) (Fin B) K K') (h : firstEval M [z] = some w) :
    kept c r M z = (c.par n r w.1 w.2.1, r) := by
  unfold kept
  rw [h]
  rfl

/-- C80: the first block of a residual network, with an input tensor. -/
theorem C80_first [Fintype K] [Fintype K'] {c : Cls K K' P R} (hL : c.lay.Ok) (hL' : c.dataLay.Ok) {cfg : Block.Cfg ℝ ℝ Θ Rb} {s : Block.St ℝ ℝ Θ} {n B : Nat}
    {fld : ∀ B, Sys2 (Fin n) (Fin B) K K' → ℝ → Sys2 (Fin n) (Fin B) K K' → Sys2 (Fin n) (Fin B) K K'} {m : Method ℝ ℝ} (h : Solves false c cfg s n fld m) (hdd : DimOk c.dataLay s.dataDim)
    {q p : Fin n × K → ℝ} {x : Fin B × K' → ℝ} (hq : s.state = some (enc c.lay "" n q)) (hp : s.costate = some (enc c.lay "p_" n p))
    {X : Tensor ℝ} (hX : cfg.initialData X = .ok (enc c.dataLay "" B x)) {sh : List Nat} (hkey : (cfg.outKey, sh) ∈ c.dataLay.names) (r : Rb) :
    Block.forward cfg r ⟨some X, none, none, none⟩ s = ends c.lay c.dataLay cfg.name cfg.outKey sh s (last (runSys (fld B (q, p, x)) m [(q, p, x)])) := by
  cases h with
  | plain hi hb ha hu he hw r0 => rw [C67_forward hL hL' hi hb hu he hdd hw hq hp hX hkey r r0, report_ends]; rfl
  | rnn hb ha hu he hn hw =>
    rw [C67_forward_rnn hL hL' hb hu he hn hdd hw hq hp hX hkey r _ fun z hz => kept_spec c _ _ _ z hz, report_ends]
    rfl

/-- C80: a later block with an own state: what is passed is put in the middle of larger rows, the own state is put beside it, and the equations of the class are integrated. -/
theorem C80_block [Fintype K] [Fintype K'] {c : Cls K K' P R} {cfg : Block.Cfg ℝ ℝ Θ Rb} {s s1 : Block.St ℝ ℝ Θ} {n B : Nat}
    {fld : ∀ B, Sys2 (Fin n) (Fin B) K K' → ℝ → Sys2 (Fin n) (Fin B) K K' → Sys2 (Fin n) (Fin B) K K'} {m : Method ℝ ℝ} (h : Solves true c cfg s n fld m)
    {nm : String} {Lp : Lay Kp} {Lq : Lay Kq} {Lp' : Lay Kp'} {Lo : Lay Ko} {Lo' : Lay Ko'} {e : Kq ⊕ Ko ≃ K} {e' : Kp' ⊕ Ko' ≃ K'} {dd : Nat}
    (hpl : Place c cfg nm Lq Lp' Lo Lo' e e' dd) {q p : Fin n × Ko → ℝ} (hq : s.state = some (enc Lo "" n q)) (hp : s.costate = some (enc Lo "p_" n p))
    {ι : Kp → Kq} {f g : Fin n × Kq → ℝ} {r : Rb} (hwid : Widens cfg r s s1 nm Lp Lq ι n f g) (y : Sys2 (Fin n) (Fin B) Kp Kp') {sh : List Nat} (hkey : (cfg.outKey, sh) ∈ c.dataLay.names) :
    Block.forward cfg r (passed nm Lp Lp' y) s = ends c.lay c.dataLay cfg.name cfg.outKey sh { s1 with dataDim := dd }
      (last (runSys (fld B (begin ι f g e e' q p y)) m [begin ι f g e e' q p y])) := by
  have hq1 := hwid.state.trans hq
  have hp1 := hwid.costate.trans hp
  have hpt := hwid.pass y.1 y.2.1
  cases h with
  | plain hi hb ha hu he hw r0 =>
    rw [changed_core hb hpl hw hwid.theta hq1 hp1 y (around ι y.1 f, around ι y.2.1 g, y.2.2) rfl r hpt hkey _ fun _ hJ =>
      run_plain2 hJ hi (hb.integrand _ _) (ha rfl _ _) r0 _ [start e e' (around ι y.1 f, around ι y.2.1 g, y.2.2) q p] _ hu he, report_ends]
    rfl
  | rnn hb ha hu he hn hw =>
    rw [changed_core hb hpl hw hwid.theta hq1 hp1 y (around ι y.1 f, around ι y.2.1 g, y.2.2) rfl r hpt hkey _ fun _ hJ =>
      run_rnn2 hJ (hb.integrand _ _) (ha rfl _ _) _ [start e e' (around ι y.1 f, around ι y.2.1 g, y.2.2) q p] _ _ hu he hn fun z hz => kept_spec c _ _ _ z hz, report_ends]
    rfl

/-- A block that only passes through: it has no own state and so no enlargement parameters. -/
structure Relays (s : Block.St ℝ ℝ Θ) : Prop where
  state : s.state = none
  costate : s.costate = none
  enlState : s.enlState = none
  enlCostate : s.enlCostate = none

theorem passThrough_relay {s : Block.St ℝ ℝ Θ} (h : Relays s) (cfg : Block.Cfg ℝ ℝ Θ Rb) (r : Rb) (S C : TDicts ℝ) :
    Block.passThrough cfg r (some S) (some C) s = (s, .ok (some S, some C)) := by
  unfold Block.passThrough
  dsimp only
  by_cases hen : cfg.enlarge = true
  · rw [if_pos hen]
    have hg : Block.getOrCreate cfg r S C s = (s, .ok ()) := by
      obtain ⟨h1, h2, h3, h4⟩ := h
      unfold Block.getOrCreate
      have e1 : ∀ (mk : String → String → Nat → List ℝ) (g : TDicts ℝ) o, Enlarge.create mk g none o = .ok none := fun _ _ _ => rfl
      have hreg : Block.registerEnl cfg.keepZero (none : Block.Enl ℝ) none s.reg = (s.reg, .ok ()) := by
        unfold Block.registerEnl
        rw [if_neg (by simp [Block.enlNames])]
        rfl
      have hex : Block.enlExists s = false := by
        unfold Block.enlExists
        rw [h3, h4]
        rfl
      by_cases hn : s.notYet = true
      · rw [if_pos hn, if_neg (by rw [hex]; decide), h1, h2, e1, e1]
        simp only [bind, Except.bind]
        rw [hreg]
        cases s
        dsimp only at *
        subst h1 h2 h3 h4
        rfl
      · rw [if_neg hn]
    rw [hg]
    dsimp only
    rw [h.enlState, h.enlCostate]
    rfl
  · rw [if_neg hen]

/-- C80: a block that only passes through integrates what it gets; its name replaces the name of the block before. -/
theorem C80_relay [Fintype K] [Fintype K'] {c : Cls K K' P R} (hL : c.lay.Ok) (hL' : c.dataLay.Ok) {cfg : Block.Cfg ℝ ℝ Θ Rb} {s : Block.St ℝ ℝ Θ} {n B : Nat}
    {fld : ∀ B, Sys2 (Fin n) (Fin B) K K' → ℝ → Sys2 (Fin n) (Fin B) K K' → Sys2 (Fin n) (Fin B) K K'} {m : Method ℝ ℝ} (h : Solves false c cfg s n fld m) (hdd : DimOk c.dataLay s.dataDim)
    (hs : Relays s) (r : Rb) {nm : String} (hnm : nm ≠ cfg.name) (y : Sys2 (Fin n) (Fin B) K K') {sh : List Nat} (hkey : (cfg.outKey, sh) ∈ c.dataLay.names) :
    Block.forward cfg r (passed nm c.lay c.dataLay y) s = ends c.lay c.dataLay cfg.name cfg.outKey sh s (last (runSys (fld B y) m [y])) := by
  have hprep : prepare cfg r (passed nm c.lay c.dataLay y) s = (s, .ok (trip c.lay c.dataLay nm y)) := by
    unfold prepare passed
    dsimp only
    rw [passThrough_relay hs]
    have hc : Block.checkInputs (α := ℝ) ⟨none, some [(nm, enc c.lay "" n y.1)], some [(nm, enc c.lay "p_" n y.2.1)], some [(nm, enc c.dataLay "" B y.2.2)]⟩ = .ok () := by
      simp [Block.checkInputs]
    rw [hc]
    dsimp only [Block.chooseData]
    rw [hs.state, hs.costate]
    have hm : ∀ (d : TDict ℝ), SDict.Sorted d → Dicts.merge none (some [(nm, d)]) cfg.name = .ok [(nm, d)] := by
      intro d hd
      have h1 : SDict.has [(nm, d)] cfg.name = false := by
        simp [SDict.has, SDict.get?, hnm]
      simp only [Dicts.merge, Dicts.single, h1, List.foldl_cons, List.foldl_nil, Dicts.copyDict_eq d hd]
      rfl
    rw [hm _ (enc_sorted hL "" n y.1), hm _ (enc_sorted hL "p_" n y.2.1)]
    unfold Block.padData
    rw [hs.state]
    rfl
  cases h with
  | plain hi hb ha hu he hw r0 =>
    rw [forward_at hL hL' hb hdd hw r hprep hkey _ (run_plain hL hL' hi hb.dim hdd (hb.integrand _ _) nm r0 _ [y] _ hu he), report_ends]
    rfl
  | rnn hb ha hu he hn hw =>
    rw [forward_at hL hL' hb hdd hw r hprep hkey _ (run_rnn hL hL' hb.dim hdd (hb.integrand _ _) nm _ [y] _ _ hu he hn fun z hz => kept_spec c _ _ _ z hz), report_ends]
    rfl

end Verif.Residual
