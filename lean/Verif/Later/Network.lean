import Verif.Later.Layouts

/-!
# C79: networks of blocks

A network is a first block followed by any number of later blocks; each gets what the block before it returns (the loop over blocks of `neuro_shooting/res_net.py:181-190`, without the striding blocks).
What it computes is described by `Stages`: functions of coordinates, without tensors, dictionaries, names or vectors.
-/

namespace Verif.Later
open Verif Verif.Tensor Verif.Assembly Verif.Whole Verif.Evolution Verif.Flow Verif.Models

/-! ## Specification -/

/-- The value at the last time. -/
def last {α : Type} (ys : Py (List α)) : Py α :=
  match ys with
  | .error e => .error e
  | .ok ys => match ys.getLast? with
    | none => .error .indexError
    | some y => .ok y

/-- Later blocks: for each the coordinates it adds, its own states and costates, its equations (which may depend on the values at the start: RNN mode) and its method. -/
inductive Stages (n : Nat) : (Kp Kp' K K' : Type) → Type 1
  | nil {K K' : Type} : Stages n K K' K K'
  | cons {Kp Kp' Ko Ko' K K' Kn Kn' : Type} [Fintype K] [Fintype K'] (e : Kp ⊕ Ko ≃ K) (e' : Kp' ⊕ Ko' ≃ K') (q p : Fin n × Ko → ℝ)
      (fld : ∀ B, Sys2 (Fin n) (Fin B) K K' → ℝ → Sys2 (Fin n) (Fin B) K K' → Sys2 (Fin n) (Fin B) K K') (M : Method ℝ ℝ) (rest : Stages n K K' Kn Kn') : Stages n Kp Kp' Kn Kn'

/-- Each stage starts from its own values beside the result of the stage before and zeros beside the data, and integrates its equations. -/
def Stages.run {n B : Nat} {Kp Kp' K K' : Type} : Stages n Kp Kp' K K' → Sys2 (Fin n) (Fin B) Kp Kp' → Py (Sys2 (Fin n) (Fin B) K K')
  | .nil, y => .ok y
  | @Stages.cons _ _ _ _ _ _ _ _ _ _ _ e e' q p fld M rest, y =>
    match last (runSys (fld B (start e e' y q p)) M [start e e' y q p]) with
    | .error err => .error err
    | .ok y => rest.run y

/-- The parameters that are kept in RNN mode: those at the first evaluation. -/
noncomputable def kept {K K' P R : Type} [Fintype K] [Fintype K'] (c : Cls K K' P R) {n B : Nat} (r : R) (M : Method ℝ ℝ) (z : Sys2 (Fin n) (Fin B) K K') : Par P R :=
  (firstEval M [z]).elim (c.par n r z.1 z.2.1, r) fun w => (c.par n r w.1 w.2.1, r)

/-- The list of blocks `l`, behind a block called `nm`, realises the stages: every block has a class, whose coordinates are the passed ones and its own (`Place`); it uses automatic differentiation, with or
without RNN mode. -/
inductive Realizes {Θ Rb : Type} (n : Nat) : {Kp Kp' K K' : Type} → Stages n Kp Kp' K K' → String → Lay Kp → Lay Kp' → String → List Nat →
    List (Block.Cfg ℝ ℝ Θ Rb × Block.St ℝ ℝ Θ × Rb) → String → Lay K → Lay K' → String → List Nat → Prop
  | nil {K K' : Type} {nm : String} {L : Lay K} {L' : Lay K'} {key : String} {sh : List Nat} : Realizes n .nil nm L L' key sh [] nm L L' key sh
  | plain {Kp Kp' Ko Ko' K K' Kn Kn' P R H D : Type} [Fintype K] [Fintype K'] {c : Cls K K' P R} (hi : Indep c) {M : List ℝ → Method ℝ ℝ}
      {icfg : Θ → Nat → Integrand.Cfg ℝ (Trip ℝ) (Par P R) (TDicts ℝ) ℝ R H D} {s0 : Integrand.St ℝ (Par P R) ℝ H D × (Nat → R × R)}
      {cfg : Block.Cfg ℝ ℝ Θ Rb} (hb : IsBlock c M icfg s0 cfg) (ha : ∀ th dd, (icfg th dd).analytic = false) (hu : s0.1.useRnn = false) (he : s0.1.external = false)
      {nm : String} {Lp : Lay Kp} {Lp' : Lay Kp'} {Lo : Lay Ko} {Lo' : Lay Ko'} {e : Kp ⊕ Ko ≃ K} {e' : Kp' ⊕ Ko' ≃ K'} {dd : Nat} (hpl : Place c cfg nm Lp Lp' Lo Lo' e e' dd)
      {s : Block.St ℝ ℝ Θ} (hen : NoEnlarge cfg s) {t : ℝ} (hw : Block.Is s (.upTo t)) {q p : Fin n × Ko → ℝ} (hq : s.state = some (enc Lo "" n q)) (hp : s.costate = some (enc Lo "p_" n p))
      {key key' : String} {sh sh' : List Nat} (hkey : (cfg.outKey, sh') ∈ c.dataLay.names) {r : Rb} (r0 : R)
      {l : List (Block.Cfg ℝ ℝ Θ Rb × Block.St ℝ ℝ Θ × Rb)} {rest : Stages n K K' Kn Kn'} {nm' : String} {Ln : Lay Kn} {Ln' : Lay Kn'} {shn : List Nat}
      (hrest : Realizes n rest cfg.name c.lay c.dataLay cfg.outKey sh' l nm' Ln Ln' key' shn) :
      Realizes n (.cons e e' q p (fun _ _ => Evolution.field2 c.rhs c.dataRhs (modeOf c n r0)) (M [0, t]) rest) nm Lp Lp' key sh ((cfg, s, r) :: l) nm' Ln Ln' key' shn
  | rnn {Kp Kp' Ko Ko' K K' Kn Kn' P R H D : Type} [Fintype K] [Fintype K'] {c : Cls K K' P R} {M : List ℝ → Method ℝ ℝ}
      {icfg : Θ → Nat → Integrand.Cfg ℝ (Trip ℝ) (Par P R) (TDicts ℝ) ℝ R H D} {s0 : Integrand.St ℝ (Par P R) ℝ H D × (Nat → R × R)}
      {cfg : Block.Cfg ℝ ℝ Θ Rb} (hb : IsBlock c M icfg s0 cfg) (ha : ∀ th dd, (icfg th dd).analytic = false) (hu : s0.1.useRnn = true) (he : s0.1.external = false) (hn : s0.1.cache = none)
      {nm : String} {Lp : Lay Kp} {Lp' : Lay Kp'} {Lo : Lay Ko} {Lo' : Lay Ko'} {e : Kp ⊕ Ko ≃ K} {e' : Kp' ⊕ Ko' ≃ K'} {dd : Nat} (hpl : Place c cfg nm Lp Lp' Lo Lo' e e' dd)
      {s : Block.St ℝ ℝ Θ} (hen : NoEnlarge cfg s) {t : ℝ} (hw : Block.Is s (.upTo t)) {q p : Fin n × Ko → ℝ} (hq : s.state = some (enc Lo "" n q)) (hp : s.costate = some (enc Lo "p_" n p))
      {key key' : String} {sh sh' : List Nat} (hkey : (cfg.outKey, sh') ∈ c.dataLay.names) {r : Rb}
      {l : List (Block.Cfg ℝ ℝ Θ Rb × Block.St ℝ ℝ Θ × Rb)} {rest : Stages n K K' Kn Kn'} {nm' : String} {Ln : Lay Kn} {Ln' : Lay Kn'} {shn : List Nat}
      (hrest : Realizes n rest cfg.name c.lay c.dataLay cfg.outKey sh' l nm' Ln Ln' key' shn) :
      Realizes n (.cons e e' q p (fun _ z => Evolution.field2 c.rhs c.dataRhs (modeAt c n (kept c (s0.2 0).1 (M [0, t]) z))) (M [0, t]) rest) nm Lp Lp' key sh ((cfg, s, r) :: l) nm' Ln Ln' key' shn

/-! ## The network -/

/-- A network: the first block gets the input tensor, every other block what the block before it returns. -/
noncomputable def network {Θ Rb : Type} (first : Block.Cfg ℝ ℝ Θ Rb × Block.St ℝ ℝ Θ × Rb) (l : List (Block.Cfg ℝ ℝ Θ Rb × Block.St ℝ ℝ Θ × Rb)) (X : Tensor ℝ) : Py (Block.Out ℝ) :=
  match (Block.forward first.1 first.2.2 ⟨some X, none, none, none⟩ first.2.1).2 with
  | .error e => .error e
  | .ok o => Block.chain o l

theorem report_last {K K' Θ : Type} (L : Lay K) (L' : Lay K') (nm key : String) (sh : List Nat) (s : Block.St ℝ ℝ Θ) (t : ℝ) {n B : Nat} (ys : Py (List (Sys2 (Fin n) (Fin B) K K'))) :
    (report L L' nm key sh s (.upTo t) ys).2 = (last ys).map (outEnd L L' nm key sh) := by
  cases ys with
  | error e => rfl
  | ok ys =>
    unfold report last
    dsimp only
    cases ys.getLast? <;> rfl

variable {K K' Kp Kp' P R H D Θ Rb : Type}

theorem forward_kept [Fintype K] [Fintype K'] {Ko Ko' : Type} {c : Cls K K' P R} {M : List ℝ → Method ℝ ℝ}
    {icfg : Θ → Nat → Integrand.Cfg ℝ (Trip ℝ) (Par P R) (TDicts ℝ) ℝ R H D} {s0 : Integrand.St ℝ (Par P R) ℝ H D × (Nat → R × R)}
    {cfg : Block.Cfg ℝ ℝ Θ Rb} (hb : IsBlock c M icfg s0 cfg) (ha : ∀ th dd, (icfg th dd).analytic = false) (hu : s0.1.useRnn = true) (he : s0.1.external = false) (hn : s0.1.cache = none)
    {nm : String} {Lp : Lay Kp} {Lp' : Lay Kp'} {Lo : Lay Ko} {Lo' : Lay Ko'} {e : Kp ⊕ Ko ≃ K} {e' : Kp' ⊕ Ko' ≃ K'} {dd : Nat} (hpl : Place c cfg nm Lp Lp' Lo Lo' e e' dd)
    {s : Block.St ℝ ℝ Θ} (hen : NoEnlarge cfg s) {t : ℝ} (hw : Block.Is s (.upTo t))
    {n B : Nat} {q p : Fin n × Ko → ℝ} (hq : s.state = some (enc Lo "" n q)) (hp : s.costate = some (enc Lo "p_" n p)) (y : Sys2 (Fin n) (Fin B) Kp Kp')
    {sh : List Nat} (hkey : (cfg.outKey, sh) ∈ c.dataLay.names) (r : Rb) :
    Block.forward cfg r (passed nm Lp Lp' y) s = report c.lay c.dataLay cfg.name cfg.outKey sh { s with dataDim := dd } (.upTo t)
      (runSys (Evolution.field2 c.rhs c.dataRhs (modeAt c n (kept c (s0.2 0).1 (M [0, t]) (start e e' y q p)))) (M [0, t]) [start e e' y q p]) :=
  C79_forward_rnn hb ha hu he hn hpl hen hw hq hp y hkey r _ fun z hz => by
    unfold kept
    rw [hz]
    rfl

/-- C79: any number of later blocks behind given values compute the stages they realise. -/
theorem C79_chain {n B : Nat} {st : Stages n Kp Kp' K K'} {nm nm' key key' : String} {L : Lay Kp} {L' : Lay Kp'} {Ln : Lay K} {Ln' : Lay K'} {sh sh' : List Nat}
    {l : List (Block.Cfg ℝ ℝ Θ Rb × Block.St ℝ ℝ Θ × Rb)} (h : Realizes n st nm L L' key sh l nm' Ln Ln' key' sh') (y : Sys2 (Fin n) (Fin B) Kp Kp') :
    Block.chain (outEnd L L' nm key sh y) l = (st.run y).map (outEnd Ln Ln' nm' key' sh') := by
  induction h with
  | nil => rfl
  | plain hi hb ha hu he hpl hen hw hq hp hkey r0 hrest ih =>
    unfold Block.chain Stages.run
    dsimp only
    rw [C79_pass_on, C79_forward hi hb ha hu he hpl hen hw hq hp y hkey _ r0, report_last]
    generalize last _ = u
    cases u with
    | error e => rfl
    | ok z => exact ih z
  | rnn hb ha hu he hn hpl hen hw hq hp hkey hrest ih =>
    unfold Block.chain Stages.run
    dsimp only
    rw [C79_pass_on, forward_kept hb ha hu he hn hpl hen hw hq hp y hkey, report_last]
    generalize last _ = u
    cases u with
    | error e => rfl
    | ok z => exact ih z

/-- C79: a network with any number of blocks, for every input: the value of the first block (C67), then the stages. -/
theorem C79_network [Fintype Kp] [Fintype Kp'] {c : Cls Kp Kp' P R} (hL : c.lay.Ok) (hL' : c.dataLay.Ok) (hi : Indep c) {M : List ℝ → Method ℝ ℝ}
    {icfg : Θ → Nat → Integrand.Cfg ℝ (Trip ℝ) (Par P R) (TDicts ℝ) ℝ R H D} {s0 : Integrand.St ℝ (Par P R) ℝ H D × (Nat → R × R)}
    {cfg : Block.Cfg ℝ ℝ Θ Rb} (hb : IsBlock c M icfg s0 cfg) (hu : s0.1.useRnn = false) (he : s0.1.external = false)
    {s : Block.St ℝ ℝ Θ} (hdd : DimOk c.dataLay s.dataDim) {t : ℝ} (hw : Block.Is s (.upTo t))
    {n B : Nat} {q p : Fin n × Kp → ℝ} {x : Fin B × Kp' → ℝ} (hq : s.state = some (enc c.lay "" n q)) (hp : s.costate = some (enc c.lay "p_" n p))
    {X : Tensor ℝ} (hX : cfg.initialData X = .ok (enc c.dataLay "" B x)) {sh : List Nat} (hkey : (cfg.outKey, sh) ∈ c.dataLay.names) (r : Rb) (r0 : R)
    {st : Stages n Kp Kp' K K'} {nm' key' : String} {Ln : Lay K} {Ln' : Lay K'} {sh' : List Nat}
    {l : List (Block.Cfg ℝ ℝ Θ Rb × Block.St ℝ ℝ Θ × Rb)} (h : Realizes n st cfg.name c.lay c.dataLay cfg.outKey sh l nm' Ln Ln' key' sh') :
    network (cfg, s, r) l X = (last (runSys (Evolution.field2 c.rhs c.dataRhs (modeOf c n r0)) (M [0, t]) [(q, p, x)]) >>= st.run).map (outEnd Ln Ln' nm' key' sh') := by
  unfold network
  dsimp only
  rw [C67_forward hL hL' hi hb hu he hdd hw hq hp hX hkey r r0, report_last]
  have ht : Block.When.times (.upTo t : Block.When ℝ) = [0, t] := rfl
  rw [ht]
  generalize last _ = u
  cases u with
  | error e => rfl
  | ok z => exact C79_chain h z

/-! ## One sample -/

/-- The equations treat the samples separately and the methods have fixed steps. -/
def Stages.Samplewise {n : Nat} {Kp Kp' K K' : Type} : Stages n Kp Kp' K K' → Prop
  | .nil => True
  | @Stages.cons _ _ _ _ _ _ _ _ _ _ _ _ _ _ _ fld M rest => Fixed M ∧ (∀ (B B' : Nat) (g : Fin B' → Fin B) z t x, fld B' (Evolution.select g z) t (Evolution.select g x) = Evolution.select g (fld B z t x)) ∧ rest.Samplewise

theorem last_map {α β : Type} (f : α → β) (ys : Py (List α)) : last (ys.map fun l => l.map f) = (last ys).map f := by
  cases ys with
  | error e => rfl
  | ok ys =>
    show last (.ok (ys.map f)) = _
    unfold last
    dsimp only
    rw [List.getLast?_map]
    cases ys.getLast? <;> rfl

theorem start_select {Ko Ko' K K' : Type} (e : Kp ⊕ Ko ≃ K) (e' : Kp' ⊕ Ko' ≃ K') {n B B' : Nat} (g : Fin B' → Fin B) (y : Sys2 (Fin n) (Fin B) Kp Kp') (q p : Fin n × Ko → ℝ) :
    start e e' (Evolution.select g y) q p = Evolution.select g (start e e' y q p) := rfl

/-- The stages treat the samples separately. -/
theorem run_select {n : Nat} (st : Stages n Kp Kp' K K') (hs : st.Samplewise) {B B' : Nat} (g : Fin B' → Fin B) (y : Sys2 (Fin n) (Fin B) Kp Kp') :
    st.run (Evolution.select g y) = (st.run y).map (Evolution.select g) := by
  induction st with
  | nil => rfl
  | cons e e' q p fld M rest ih =>
    obtain ⟨h1, h2, h3⟩ := hs
    unfold Stages.run
    rw [start_select]
    have h := runSys_map (Evolution.select g) (select_combine g) (fun t z => h2 B B' g (start e e' y q p) t z) M (.inl h1) [start e e' y q p]
    rw [List.map_singleton] at h
    rw [h, last_map]
    cases last (runSys (fld B (start e e' y q p)) M [start e e' y q p]) with
    | error e => rfl
    | ok z => exact ih h3 z

/-- C79: with fixed-step methods the output of a network for a sample depends on the input for this sample only, not on the other samples, their number or its place among them; states and costates do
not depend on the batch at all. -/
theorem C79_sample [Fintype Kp] [Fintype Kp'] {c : Cls Kp Kp' P R} (hL : c.lay.Ok) (hL' : c.dataLay.Ok) (hi : Indep c) (hrow : Rowwise c.dataRhs) {M : List ℝ → Method ℝ ℝ} (hfix : ∀ ts, Fixed (M ts))
    {icfg : Θ → Nat → Integrand.Cfg ℝ (Trip ℝ) (Par P R) (TDicts ℝ) ℝ R H D} {s0 : Integrand.St ℝ (Par P R) ℝ H D × (Nat → R × R)}
    {cfg : Block.Cfg ℝ ℝ Θ Rb} (hb : IsBlock c M icfg s0 cfg) (hu : s0.1.useRnn = false) (he : s0.1.external = false)
    {s : Block.St ℝ ℝ Θ} (hdd : DimOk c.dataLay s.dataDim) {t : ℝ} (hw : Block.Is s (.upTo t))
    {n B B' : Nat} {q p : Fin n × Kp → ℝ} {x : Fin B × Kp' → ℝ} {x' : Fin B' × Kp' → ℝ} (hq : s.state = some (enc c.lay "" n q)) (hp : s.costate = some (enc c.lay "p_" n p))
    {X X' : Tensor ℝ} (hX : cfg.initialData X = .ok (enc c.dataLay "" B x)) (hX' : cfg.initialData X' = .ok (enc c.dataLay "" B' x')) {sh : List Nat} (hkey : (cfg.outKey, sh) ∈ c.dataLay.names) (r : Rb)
    {st : Stages n Kp Kp' K K'} (hst : st.Samplewise) {nm' key' : String} {Ln : Lay K} {Ln' : Lay K'} {sh' : List Nat}
    {l : List (Block.Cfg ℝ ℝ Θ Rb × Block.St ℝ ℝ Θ × Rb)} (h : Realizes n st cfg.name c.lay c.dataLay cfg.outKey sh l nm' Ln Ln' key' sh')
    (b : Fin B) (b' : Fin B') (hx : ∀ k, x (b, k) = x' (b', k)) :
    (∀ e, network (cfg, s, r) l X = .error e ↔ network (cfg, s, r) l X' = .error e) ∧
    ∀ o, network (cfg, s, r) l X = .ok o → ∃ o' t t', network (cfg, s, r) l X' = .ok o' ∧ o.state = o'.state ∧ o.costate = o'.costate ∧
      o.result = .tensor t ∧ o'.result = .tensor t' ∧ ∀ idx, t.get? (b.1 :: idx) = t'.get? (b'.1 :: idx) := by
  rw [C79_network hL hL' hi hb hu he hdd hw hq hp hX hkey r (s0.2 0).1 h, C79_network hL hL' hi hb hu he hdd hw hq hp hX' hkey r (s0.2 0).1 h]
  have key : ∀ {A : Nat} (a : Fin A) (y : Fin A × Kp' → ℝ), ((last (runSys (Evolution.field2 c.rhs c.dataRhs (modeOf c n (s0.2 0).1)) (M [0, t]) [(q, p, y)]) >>= st.run).map
      (Evolution.select fun _ : Fin 1 => a)) = (last (runSys (Evolution.field2 c.rhs c.dataRhs (modeOf c n (s0.2 0).1)) (M [0, t]) [(q, p, fun k => y (a, k.2))]) >>= st.run) := by
    intro A a y
    have h1 := (runSys_map (Evolution.select fun _ : Fin 1 => a) (select_combine _) (F := Evolution.field2 c.rhs c.dataRhs (modeOf c n (s0.2 0).1))
      (F' := Evolution.field2 c.rhs c.dataRhs (modeOf c n (s0.2 0).1)) (fun t z => by simp only [Evolution.field2, Evolution.select, hrow (Fin 1) (Fin A) fun _ => a]) (M [0, t])
      (.inl (hfix _)) [(q, p, y)])
    have e : List.map (Evolution.select fun _ : Fin 1 => a) [(q, p, y)] = [(q, p, fun k => y (a, k.2))] := rfl
    rw [e] at h1
    rw [h1, last_map]
    cases last (runSys (Evolution.field2 c.rhs c.dataRhs (modeOf c n (s0.2 0).1)) (M [0, t]) [(q, p, y)]) with
    | error e => rfl
    | ok z => exact (run_select st hst _ z).symm
  have k1 := key b x
  have k2 := key b' x'
  have e : (fun k : Fin 1 × Kp' => x (b, k.2)) = fun k => x' (b', k.2) := funext fun k => hx k.2
  rw [e, ← k2] at k1
  revert k1
  generalize (last (runSys _ (M [0, t]) [(q, p, x)]) >>= st.run) = u
  generalize (last (runSys _ (M [0, t]) [(q, p, x')]) >>= st.run) = u'
  intro k1
  have hr := (report_sample (L := Ln) (L' := Ln') nm' key' sh' s (.upTo t) b b' (u.map fun z => [z]) (u'.map fun z => [z]) (by
    cases u with
    | error e =>
      cases u' with
      | error e' => cases k1; rfl
      | ok z' => cases k1
    | ok z =>
      cases u' with
      | error e' => cases k1
      | ok z' => exact congrArg (fun w => Except.ok [w]) (Except.ok.inj k1))).2
  rw [report_last, report_last] at hr
  have hl : ∀ {A : Nat} (v : Py (Sys2 (Fin n) (Fin A) K K')), last (v.map fun z => [z]) = v := by
    intro A v
    cases v <;> rfl
  rw [hl, hl] at hr
  refine ⟨hr.1, fun o ho => ?_⟩
  obtain ⟨o', t1, t2, h1, h2, h3, h4, h5, h6⟩ := hr.2 o ho
  exact ⟨o', t1, t2, h1, h2, h3, h4, h5, fun idx => h6 0 idx⟩

theorem firstEval_map [Fintype K] [Fintype K'] {n B n' B' : Nat} (φ : Sys2 (Fin n) (Fin B) K K' → Sys2 (Fin n') (Fin B') K K')
    (hφ : ∀ g zs, φ (combine g zs) = combine g (zs.map φ)) (M : Method ℝ ℝ) (hM : Fixed M ∨ ∀ z, sumAll (φ z) = sumAll z) : ∀ zs, firstEval M (zs.map φ) = (firstEval M zs).map φ := by
  induction M with
  | done outs => intro zs; rfl
  | fail e => intro zs; rfl
  | eval t g next ih =>
    intro zs
    unfold firstEval
    rw [← hφ]
    rfl
  | test q next ih =>
    intro zs
    rcases hM with h | h
    · exact h.elim
    · unfold firstEval
      rw [← ih _ (.inr h), ← hφ, h]

theorem kept_select [Fintype K] [Fintype K'] (c : Cls K K' P R) {n B B' : Nat} (r : R) {M : Method ℝ ℝ} (hM : Fixed M) (g : Fin B' → Fin B) (z : Sys2 (Fin n) (Fin B) K K') :
    kept c r M (Evolution.select g z) = kept c r M z := by
  unfold kept
  have h := firstEval_map (Evolution.select g) (select_combine g) M (.inl hM) [z]
  rw [List.map_singleton] at h
  rw [h]
  cases firstEval M [z] <;> rfl

/-- C79: the stages of classes that treat their rows separately (`Rowwise`) satisfy the hypothesis of `C79_sample`, without and with RNN mode. -/
theorem C79_samplewise [Fintype K] [Fintype K'] {c : Cls K K' P R} (hrow : Rowwise c.dataRhs) {M : Method ℝ ℝ} (hM : Fixed M) {n : Nat} {Kn Kn' Ko Ko' : Type} (e : Kp ⊕ Ko ≃ K) (e' : Kp' ⊕ Ko' ≃ K')
    (q p : Fin n × Ko → ℝ) (r : R) (rest : Stages n K K' Kn Kn') (hrest : rest.Samplewise) :
    (Stages.cons e e' q p (fun _ _ => Evolution.field2 c.rhs c.dataRhs (modeOf c n r)) M rest).Samplewise ∧
    (Stages.cons e e' q p (fun _ z => Evolution.field2 c.rhs c.dataRhs (modeAt c n (kept c r M z))) M rest).Samplewise := by
  refine ⟨⟨hM, fun B B' g z t x => ?_, hrest⟩, ⟨hM, fun B B' g z t x => ?_, hrest⟩⟩
  · simp only [Evolution.field2, Evolution.select, hrow (Fin B') (Fin B) g]
  · dsimp only
    rw [kept_select c r hM g z]
    simp only [Evolution.field2, Evolution.select, hrow (Fin B') (Fin B) g]

/-! ## The order of the particles -/

/-- The same stages with the own particles of every block permuted. -/
def Stages.permuted {n : Nat} {Kp Kp' K K' : Type} (σ : Equiv.Perm (Fin n)) : Stages n Kp Kp' K K' → Stages n Kp Kp' K K'
  | .nil => .nil
  | @Stages.cons _ _ _ _ _ _ _ _ _ _ _ e e' q p fld M rest => .cons e e' (Evolution.rows σ q) (Evolution.rows σ p) fld M (rest.permuted σ)

/-- The equations follow the order of the particles, the data do not depend on it. -/
def Stages.Equivariant {n : Nat} {Kp Kp' K K' : Type} : Stages n Kp Kp' K K' → Prop
  | .nil => True
  | @Stages.cons _ _ _ _ _ _ _ _ _ _ _ _ _ _ _ fld _ rest => (∀ (B : Nat) (σ : Equiv.Perm (Fin n)) z t x, fld B (permute σ z) t (permute σ x) = permute σ (fld B z t x)) ∧ rest.Equivariant

theorem start_permute {Ko Ko' K K' : Type} (e : Kp ⊕ Ko ≃ K) (e' : Kp' ⊕ Ko' ≃ K') {n B : Nat} (σ : Equiv.Perm (Fin n)) (y : Sys2 (Fin n) (Fin B) Kp Kp') (q p : Fin n × Ko → ℝ) :
    start e e' (permute σ y) (Evolution.rows σ q) (Evolution.rows σ p) = permute σ (start e e' y q p) := rfl

theorem run_permute {n : Nat} (st : Stages n Kp Kp' K K') (hs : st.Equivariant) {B : Nat} (σ : Equiv.Perm (Fin n)) (y : Sys2 (Fin n) (Fin B) Kp Kp') :
    (st.permuted σ).run (permute σ y) = (st.run y).map (permute σ) := by
  induction st with
  | nil => rfl
  | cons e e' q p fld M rest ih =>
    obtain ⟨h2, h3⟩ := hs
    unfold Stages.permuted Stages.run
    rw [start_permute]
    have h := runSys_map (permute σ) (permute_combine σ) (fun t z => h2 B σ (start e e' y q p) t z) M (.inr (permute_sum σ)) [start e e' y q p]
    rw [List.map_singleton] at h
    rw [h, last_map]
    cases last (runSys (fld B (start e e' y q p)) M [start e e' y q p]) with
    | error e => rfl
    | ok z => exact ih h3 z

/-- C79: the stages of classes whose parameters do not depend on the order of the particles (`Equi`) satisfy the hypothesis of `C79_order`, without and with RNN mode. -/
theorem C79_equivariant [Fintype K] [Fintype K'] {c : Cls K K' P R} (heq : Equi c) {M : Method ℝ ℝ} {n : Nat} {Kn Kn' Ko Ko' : Type} (e : Kp ⊕ Ko ≃ K) (e' : Kp' ⊕ Ko' ≃ K')
    (q p : Fin n × Ko → ℝ) (r : R) (rest : Stages n K K' Kn Kn') (hrest : rest.Equivariant) :
    (Stages.cons e e' q p (fun _ _ => Evolution.field2 c.rhs c.dataRhs (modeOf c n r)) M rest).Equivariant ∧
    (Stages.cons e e' q p (fun _ z => Evolution.field2 c.rhs c.dataRhs (modeAt c n (kept c r M z))) M rest).Equivariant := by
  have hk : ∀ {B : Nat} (σ : Equiv.Perm (Fin n)) (z : Sys2 (Fin n) (Fin B) K K'), kept c r M (permute σ z) = kept c r M z := by
    intro B σ z
    unfold kept
    have h := firstEval_map (permute σ) (permute_combine σ) M (.inr (permute_sum σ)) [z]
    rw [List.map_singleton] at h
    rw [h]
    cases firstEval M [z] with
    | none =>
      have := (heq.2 n r σ z.1 z.2.1).1
      simp only [Option.map_none, Option.elim, permute, this]
    | some w =>
      have := (heq.2 n r σ w.1 w.2.1).1
      simp only [Option.map_some, Option.elim, permute, this]
  refine ⟨⟨fun B σ z t x => ?_, hrest⟩, ⟨fun B σ z t x => ?_, hrest⟩⟩
  · have h1 := heq.2 n r σ x.1 x.2.1
    simp only [Evolution.field2, modeOf, permute, h1.1, h1.2, heq.1 (Fin n) (Fin n) σ]
  · dsimp only
    rw [hk σ z]
    have h1 := heq.2 n (kept c r M z).2 σ x.1 x.2.1
    simp only [Evolution.field2, modeAt, permute, h1.2, heq.1 (Fin n) (Fin n) σ]

/-- C79: permuting the particles (and their costates) of all blocks in the same way does not change the output of a network, for every method, also with adaptive step sizes. -/
theorem C79_order [Fintype Kp] [Fintype Kp'] {c : Cls Kp Kp' P R} (hL : c.lay.Ok) (hL' : c.dataLay.Ok) (hi : Indep c) (heq : Equi c) {M : List ℝ → Method ℝ ℝ}
    {icfg : Θ → Nat → Integrand.Cfg ℝ (Trip ℝ) (Par P R) (TDicts ℝ) ℝ R H D} {s0 : Integrand.St ℝ (Par P R) ℝ H D × (Nat → R × R)}
    {cfg : Block.Cfg ℝ ℝ Θ Rb} (hb : IsBlock c M icfg s0 cfg) (hu : s0.1.useRnn = false) (he : s0.1.external = false)
    {s : Block.St ℝ ℝ Θ} (hdd : DimOk c.dataLay s.dataDim) {t : ℝ} (hw : Block.Is s (.upTo t))
    {n B : Nat} {q p : Fin n × Kp → ℝ} {x : Fin B × Kp' → ℝ} (hq : s.state = some (enc c.lay "" n q)) (hp : s.costate = some (enc c.lay "p_" n p))
    {X : Tensor ℝ} (hX : cfg.initialData X = .ok (enc c.dataLay "" B x)) {sh : List Nat} (hkey : (cfg.outKey, sh) ∈ c.dataLay.names) (r r' : Rb)
    {st : Stages n Kp Kp' K K'} (hst : st.Equivariant) {nm' key' : String} {Ln : Lay K} {Ln' : Lay K'} {sh' : List Nat} (σ : Equiv.Perm (Fin n))
    {l l' : List (Block.Cfg ℝ ℝ Θ Rb × Block.St ℝ ℝ Θ × Rb)} (h : Realizes n st cfg.name c.lay c.dataLay cfg.outKey sh l nm' Ln Ln' key' sh')
    (h' : Realizes n (st.permuted σ) cfg.name c.lay c.dataLay cfg.outKey sh l' nm' Ln Ln' key' sh') :
    let s' := { s with state := some (enc c.lay "" n (Evolution.rows σ q)), costate := some (enc c.lay "p_" n (Evolution.rows σ p)) }
    ((network (cfg, s', r') l' X).map fun o => (o.result, o.data)) = (network (cfg, s, r) l X).map fun o => (o.result, o.data) := by
  intro s'
  have hw' : Block.Is s' (.upTo t) := hw
  rw [C79_network hL hL' hi hb hu he hdd hw hq hp hX hkey r (s0.2 0).1 h,
    C79_network (s := s') hL hL' hi hb hu he hdd hw' (q := Evolution.rows σ q) (p := Evolution.rows σ p) rfl rfl hX hkey r' (s0.2 0).1 h']
  have hF : ∀ t (z : Sys2 (Fin n) (Fin B) Kp Kp'), Evolution.field2 c.rhs c.dataRhs (modeOf c n (s0.2 0).1) t (permute σ z) = permute σ (Evolution.field2 c.rhs c.dataRhs (modeOf c n (s0.2 0).1) t z) := by
    intro t z
    have h1 := heq.2 n (s0.2 0).1 σ z.1 z.2.1
    simp only [Evolution.field2, modeOf, permute, h1.1, h1.2, heq.1 (Fin n) (Fin n) σ]
  have hrun := runSys_map (permute σ) (permute_combine σ) hF (M [0, t]) (.inr (permute_sum σ)) [(q, p, x)]
  have e : List.map (permute σ) [(q, p, x)] = [(Evolution.rows σ q, Evolution.rows σ p, x)] := rfl
  rw [e] at hrun
  rw [hrun, last_map]
  cases last (runSys (Evolution.field2 c.rhs c.dataRhs (modeOf c n (s0.2 0).1)) (M [0, t]) [(q, p, x)]) with
  | error e => rfl
  | ok z =>
    show Except.map _ (Except.map _ ((st.permuted σ).run (permute σ z))) = Except.map _ (Except.map _ (st.run z))
    rw [run_permute st hst σ z]
    cases st.run z <;> rfl

end Verif.Later
