import Verif.Residual.Blocks
import Verif.Residual.Thinning
import Verif.ResNet.Props

/-!
# C80: residual networks

`BasicResNet.forward` (`neuro_shooting/res_net.py:173-206`) from the output of its stem to the input of its head, as a function of coordinates.
-/

namespace Verif.Residual
open Verif Verif.Tensor Verif.Assembly Verif.Whole Verif.Evolution Verif.Flow Verif.Later Verif.ResNet

variable {K K' Kp Kp' P R Θ Rb β : Type}

/-! ## Networks that realise steps -/

/-- The blocks and striding blocks `l`, behind a block called `nm`, realise the steps.  The last argument is the key and the shape of the output of the last block if no striding block follows it, otherwise nothing; the one
before the list is the same for the block before `l`. -/
inductive Realizes (r : Rb) (n : Nat) : {Kp Kp' K K' : Type} → Steps n Kp Kp' K K' → String → Lay Kp → Lay Kp' → Option (String × List Nat) → List (Stage ℝ ℝ Θ Rb) →
    String → Lay K → Lay K' → Option (String × List Nat) → Prop
  | nil {K K' : Type} {nm : String} {L : Lay K} {L' : Lay K'} {o : Option (String × List Nat)} : Realizes r n .nil nm L L' o [] nm L L' o
  | block {Kp Kp' Kq Ko Ko' K K' Kn Kn' P R : Type} [Fintype K] [Fintype K'] {c : Cls K K' P R} {cfg : Block.Cfg ℝ ℝ Θ Rb} {s s1 : Block.St ℝ ℝ Θ}
      {fld : ∀ B, Sys2 (Fin n) (Fin B) K K' → ℝ → Sys2 (Fin n) (Fin B) K K' → Sys2 (Fin n) (Fin B) K K'} {m : Method ℝ ℝ} (h : Solves true c cfg s n fld m)
      {nm : String} {Lp : Lay Kp} {Lq : Lay Kq} {Lp' : Lay Kp'} {Lo : Lay Ko} {Lo' : Lay Ko'} {e : Kq ⊕ Ko ≃ K} {e' : Kp' ⊕ Ko' ≃ K'} {dd : Nat}
      (hpl : Place c cfg nm Lq Lp' Lo Lo' e e' dd) {q p : Fin n × Ko → ℝ} (hq : s.state = some (enc Lo "" n q)) (hp : s.costate = some (enc Lo "p_" n p))
      {ι : Kp → Kq} {f g : Fin n × Kq → ℝ} (hwid : Widening cfg r s s1 nm Lp Lq ι n f g) {sh : List Nat} (hkey : (cfg.outKey, sh) ∈ c.dataLay.names)
      {o o' : Option (String × List Nat)} {l : List (Stage ℝ ℝ Θ Rb)} {rest : Steps n K K' Kn Kn'} {nm' : String} {Ln : Lay Kn} {Ln' : Lay Kn'}
      (hrest : Realizes r n rest cfg.name c.lay c.dataLay (some (cfg.outKey, sh)) l nm' Ln Ln' o') :
      Realizes r n (.block ι f g e e' q p fld m rest) nm Lp Lp' o (.block cfg s :: l) nm' Ln Ln' o'
  | relay {K K' Kn Kn' P R : Type} [Fintype K] [Fintype K'] {c : Cls K K' P R} (hL : c.lay.Ok) (hL' : c.dataLay.Ok) {cfg : Block.Cfg ℝ ℝ Θ Rb} {s : Block.St ℝ ℝ Θ}
      {fld : ∀ B, Sys2 (Fin n) (Fin B) K K' → ℝ → Sys2 (Fin n) (Fin B) K K' → Sys2 (Fin n) (Fin B) K K'} {m : Method ℝ ℝ} (h : Solves false c cfg s n fld m) (hdd : DimOk c.dataLay s.dataDim)
      (hs : Relays s) {nm : String} (hnm : nm ≠ cfg.name) {sh : List Nat} (hkey : (cfg.outKey, sh) ∈ c.dataLay.names)
      {o o' : Option (String × List Nat)} {l : List (Stage ℝ ℝ Θ Rb)} {rest : Steps n K K' Kn Kn'} {nm' : String} {Ln : Lay Kn} {Ln' : Lay Kn'}
      (hrest : Realizes r n rest cfg.name c.lay c.dataLay (some (cfg.outKey, sh)) l nm' Ln Ln' o') :
      Realizes r n (.relay fld m rest) nm c.lay c.dataLay o (.block cfg s :: l) nm' Ln Ln' o'
  | stride {Kp Kp' K K' Kn Kn' : Type} {Lp : Lay Kp} {L : Lay K} {Lp' : Lay Kp'} {L' : Lay K'} {σ : K → Kp} {σ' : K' → Kp'} {ps : List (Nat × Nat)} (hLp : Lp.Ok) (hL : L.Ok) (hLp' : Lp'.Ok) (hL' : L'.Ok)
      (hps : Allowed ps) (h : Strided Lp L σ ps) (h' : Strided Lp' L' σ' ps) (hrank : Lp.names.head?.map (fun e => e.2.length) = Lp'.names.head?.map (fun e => e.2.length))
      {nm : String} {o o' : Option (String × List Nat)} {l : List (Stage ℝ ℝ Θ Rb)} {rest : Steps n K K' Kn Kn'} {nm' : String} {Ln : Lay Kn} {Ln' : Lay Kn'}
      (hrest : Realizes r n rest nm L L' none l nm' Ln Ln' o') :
      Realizes r n (.stride σ σ' rest) nm Lp Lp' o (.stride (strider ps) :: l) nm' Ln Ln' o'

/-- A residual network with a first block of class `c` that has the own state `q` and costate `p`, followed by the steps `st`; the last of them is a block with the output `key` of shape `sh`. -/
structure IsNet [Fintype Kp] [Fintype Kp'] (net : Net ℝ ℝ Θ Rb β) (r : Rb) (c : Cls Kp Kp' P R) (cfg : Block.Cfg ℝ ℝ Θ Rb) {n : Nat} (q p : Fin n × Kp → ℝ)
    (fld : ∀ B, Sys2 (Fin n) (Fin B) Kp Kp' → ℝ → Sys2 (Fin n) (Fin B) Kp Kp' → Sys2 (Fin n) (Fin B) Kp Kp') (m : Method ℝ ℝ) (st : Steps n Kp Kp' K K') (nm' : String) (Ln : Lay K) (Ln' : Lay K')
    (key : String) (sh : List Nat) : Prop where
  lay : c.lay.Ok
  dataLay : c.dataLay.Ok
  stages : ∃ s l sh0, stages net.layers net.strides = .block cfg s :: l ∧ Solves false c cfg s n fld m ∧ DimOk c.dataLay s.dataDim ∧ s.state = some (enc c.lay "" n q) ∧ s.costate = some (enc c.lay "p_" n p) ∧
    (cfg.outKey, sh0) ∈ c.dataLay.names ∧ Realizes r n st cfg.name c.lay c.dataLay none l nm' Ln Ln' (some (key, sh))

/-- The tensor with the values of the data under the key. -/
noncomputable def output (L' : Lay K') {n B : Nat} (y : Sys2 (Fin n) (Fin B) K K') (o : String × List Nat) : Block.Result ℝ := .tensor (tab (B :: o.2) (value L' B y.2.2 o.1))

/-- What is carried along. -/
noncomputable def carried (nm : String) (L : Lay K) (L' : Lay K') {n B : Nat} (y : Sys2 (Fin n) (Fin B) K K') : Dicts3 ℝ := ([(nm, enc L "" n y.1)], [(nm, enc L "p_" n y.2.1)], [(nm, enc L' "" B y.2.2)])

/-! ## The loops of the network -/

/-- The loops of lines 183-197, over blocks and striding blocks in a row. -/
def runStages {α T : Type} [Zero α] (r : Rb) (x : Tensor α) : List (Stage α T Θ Rb) → Loop α → List (Stage α T Θ Rb) × Py (Loop α)
  | [], L => ([], .ok L)
  | .block cfg s :: l, L =>
    match runBlock r x (cfg, s) L with
    | (b, .error e) => (.block b.1 b.2 :: l, .error e)
    | (b, .ok L) => (.block b.1 b.2 :: (runStages r x l L).1, (runStages r x l L).2)
  | .stride p :: l, L =>
    match runStride (some p) L with
    | .error e => (.stride p :: l, .error e)
    | .ok L => (.stride p :: (runStages r x l L).1, (runStages r x l L).2)

theorem runStages_block {α T : Type} [Zero α] (r : Rb) (x : Tensor α) (cfg : Block.Cfg α T Θ Rb) (s : Block.St α T Θ) (l : List (Stage α T Θ Rb)) (L : Loop α) :
    runStages r x (.block cfg s :: l) L = match runBlock r x (cfg, s) L with
      | (b, .error e) => (.block b.1 b.2 :: l, .error e)
      | (b, .ok L) => (.block b.1 b.2 :: (runStages r x l L).1, (runStages r x l L).2) := rfl

theorem runStages_stride {α T : Type} [Zero α] (r : Rb) (x : Tensor α) (p : Striding.Block) (l : List (Stage α T Θ Rb)) (L : Loop α) :
    runStages r x (.stride p :: l) L = match runStride (some p) L with
      | .error e => (.stride p :: l, .error e)
      | .ok L => (.stride p :: (runStages r x l L).1, (runStages r x l L).2) := rfl

/-- First some stages, then others. -/
def runBoth {α T : Type} [Zero α] (r : Rb) (x : Tensor α) (l2 : List (Stage α T Θ Rb)) : List (Stage α T Θ Rb) × Py (Loop α) → List (Stage α T Θ Rb) × Py (Loop α)
  | (l, .error e) => (l ++ l2, .error e)
  | (l, .ok L) => (l ++ (runStages r x l2 L).1, (runStages r x l2 L).2)

theorem runStages_append {α T : Type} [Zero α] (r : Rb) (x : Tensor α) (l1 l2 : List (Stage α T Θ Rb)) (L : Loop α) :
    runStages r x (l1 ++ l2) L = runBoth r x l2 (runStages r x l1 L) := by
  induction l1 generalizing L with
  | nil => rfl
  | cons a l1 ih =>
    rw [List.cons_append]
    cases a with
    | block cfg s =>
      rw [runStages_block, runStages_block]
      cases h : runBlock r x (cfg, s) L with
      | mk b y =>
        cases y with
        | error e => rfl
        | ok L1 =>
          dsimp only
          rw [ih L1]
          cases runStages r x l1 L1 with
          | mk l y => cases y <;> rfl
    | stride p =>
      rw [runStages_stride, runStages_stride]
      cases h : runStride (some p) L with
      | error e => rfl
      | ok L1 =>
        dsimp only
        rw [ih L1]
        cases runStages r x l1 L1 with
        | mk l y => cases y <;> rfl

theorem runStages_blocks {α T : Type} [Zero α] (r : Rb) (x : Tensor α) (bs : List (Block.Cfg α T Θ Rb × Block.St α T Θ)) (L : Loop α) :
    runStages r x (bs.map fun b => .block b.1 b.2) L = ((runBlocks r x bs L).1.map fun b => .block b.1 b.2, (runBlocks r x bs L).2) := by
  induction bs generalizing L with
  | nil => rfl
  | cons b bs ih =>
    rw [List.map_cons, runStages_block]
    unfold runBlocks
    cases h : runBlock r x b L with
    | mk b' y =>
      cases y with
      | error e => rfl
      | ok L1 =>
        dsimp only
        rw [ih L1]
        rfl

theorem runStages_layers {α T : Type} [Zero α] (r : Rb) (x : Tensor α) (layers : List (List (Block.Cfg α T Θ Rb × Block.St α T Θ))) (strides : List (Option Striding.Block)) (L : Loop α) :
    runStages r x (stages layers strides) L = (stages (runLayers r x layers strides L).1 strides, (runLayers r x layers strides L).2) := by
  induction layers generalizing strides L with
  | nil => cases strides <;> rfl
  | cons bs layers ih =>
    cases strides with
    | nil => rfl
    | cons p ps =>
      have e : ∀ (bs : List (Block.Cfg α T Θ Rb × Block.St α T Θ)) ls, stages (bs :: ls) (p :: ps) = bs.map (fun b => .block b.1 b.2) ++ ((p.map .stride).toList ++ stages ls ps) := by
        intro bs ls
        simp [stages]
      rw [e, runStages_append, runStages_blocks]
      unfold runLayers
      cases h : runBlocks r x bs L with
      | mk bs' y =>
        cases y with
        | error er =>
          show (_ ++ _, _) = _
          rw [e]
        | ok L1 =>
          show (_ ++ (runStages r x ((p.map .stride).toList ++ stages layers ps) L1).1, (runStages r x ((p.map .stride).toList ++ stages layers ps) L1).2) = _
          cases p with
          | none =>
            show _ = (stages (bs' :: (runLayers r x layers ps L1).1) (none :: ps), (runLayers r x layers ps L1).2)
            rw [e]
            simp only [Option.map_none, Option.toList_none, List.nil_append]
            rw [ih ps L1]
          | some p =>
            simp only [Option.map_some, Option.toList_some, List.cons_append, List.nil_append]
            rw [runStages_stride]
            cases h1 : runStride (some p) L1 with
            | error er =>
              dsimp only
              rw [e]
              rfl
            | ok L2 =>
              dsimp only
              rw [ih ps L2, e]
              rfl

/-! ## The steps -/

/-- A block at the end of its pass. -/
noncomputable def afterBlock (cfg : Block.Cfg ℝ ℝ Θ Rb) (s' : Block.St ℝ ℝ Θ) (L : Lay K) (L' : Lay K') (nm' key : String) (sh : List Nat) {n B : Nat} : Py (Sys2 (Fin n) (Fin B) K K') →
    (Block.Cfg ℝ ℝ Θ Rb × Block.St ℝ ℝ Θ) × Py (Loop ℝ)
  | .error e => ((cfg, s'), .error e)
  | .ok z => ((cfg, { s' with notYet := false }), .ok ⟨output L' z (key, sh), some (carried nm' L L' z)⟩)

theorem runBlock_later {cfg : Block.Cfg ℝ ℝ Θ Rb} {s s' : Block.St ℝ ℝ Θ} {r : Rb} {nm nm' key : String} {sh : List Nat} {Lp : Lay Kp} {Lp' : Lay Kp'} {L : Lay K} {L' : Lay K'} {n B : Nat}
    {y : Sys2 (Fin n) (Fin B) Kp Kp'} {z : Py (Sys2 (Fin n) (Fin B) K K')} (h : Block.forward cfg r (passed nm Lp Lp' y) s = ends L L' nm' key sh s' z) (x : Tensor ℝ) (ret : Block.Result ℝ) :
    runBlock r x (cfg, s) ⟨ret, some (carried nm Lp Lp' y)⟩ = afterBlock cfg s' L L' nm' key sh z := by
  unfold runBlock
  have e : blockInput x (some (carried nm Lp Lp' y)) = passed nm Lp Lp' y := rfl
  dsimp only
  rw [e, h]
  cases z <;> rfl

/-- C80: blocks and striding blocks of a residual network, behind given values: they compute the steps they realise (or raise the exception of the first step that fails), and afterwards they realise the same steps, with the
same values around what is passed, whatever random numbers are drawn later. -/
theorem C80_steps {n B : Nat} {st : Steps n Kp Kp' K K'} {nm nm' : String} {L : Lay Kp} {L' : Lay Kp'} {Ln : Lay K} {Ln' : Lay K'} {o o' : Option (String × List Nat)} {r : Rb}
    {l : List (Stage ℝ ℝ Θ Rb)} (h : Realizes r n st nm L L' o l nm' Ln Ln' o') (y : Sys2 (Fin n) (Fin B) Kp Kp') (x : Tensor ℝ) (ret : Block.Result ℝ) (hret : ∀ k, o = some k → ret = output L' y k) :
    (∀ e, st.run y = .error e → (runStages r x l ⟨ret, some (carried nm L L' y)⟩).2 = .error e) ∧
    ∀ z, st.run y = .ok z → ∃ l' ret', runStages r x l ⟨ret, some (carried nm L L' y)⟩ = (l', .ok ⟨ret', some (carried nm' Ln Ln' z)⟩) ∧ (∀ k, o' = some k → ret' = output Ln' z k) ∧
      ∀ r', Realizes r' n st nm L L' o l' nm' Ln Ln' o' := by
  induction h generalizing ret with
  | nil =>
    refine ⟨nofun, fun z hz => ?_⟩
    cases hz
    exact ⟨[], ret, rfl, hret, fun _ => .nil⟩
  | @block Kp Kp' Kq Ko Ko' K K' Kn Kn' P R _ _ c cfg s s1 fld m h nm Lp Lq Lp' Lo Lo' e e' dd hpl q p hq hp ι f g hwid sh hkey o o' l rest nm' Ln Ln' hrest ih =>
    have hb := runBlock_later (C80_block h hpl hq hp hwid.now y hkey) x ret
    rw [runStages_block, hb]
    unfold Steps.run
    generalize last _ = u
    cases u with
    | error er => exact ⟨fun e he => by cases he; rfl, nofun⟩
    | ok z =>
      dsimp only [afterBlock]
      obtain ⟨h1, h2⟩ := ih z (output c.dataLay z (cfg.outKey, sh)) fun k hk => by rw [← Option.some.inj hk]
      refine ⟨h1, fun w hw => ?_⟩
      obtain ⟨l', ret', g1, g2, g3⟩ := h2 w hw
      refine ⟨_, ret', by rw [g1], g2, fun r' => ?_⟩
      have hl := hwid.later dd
      exact .block (s := { s1 with dataDim := dd, notYet := false }) (s1 := { s1 with dataDim := dd, notYet := false }) (h.same hwid.now.time.1 hwid.now.time.2) hpl (hwid.now.state.trans hq) (hwid.now.costate.trans hp)
        ⟨hl r', fun dd' r'' => hwid.later dd' r''⟩ hkey (g3 r')
  | @relay K K' Kn Kn' P R _ _ c hL hL' cfg s fld m h hdd hs nm hnm sh hkey o o' l rest nm' Ln Ln' hrest ih =>
    have hb := runBlock_later (C80_relay hL hL' h hdd hs r hnm y hkey) x ret
    rw [runStages_block, hb]
    unfold Steps.run
    generalize last _ = u
    cases u with
    | error er => exact ⟨fun e he => by cases he; rfl, nofun⟩
    | ok z =>
      dsimp only [afterBlock]
      obtain ⟨h1, h2⟩ := ih z (output c.dataLay z (cfg.outKey, sh)) fun k hk => by rw [← Option.some.inj hk]
      refine ⟨h1, fun w hw => ?_⟩
      obtain ⟨l', ret', g1, g2, g3⟩ := h2 w hw
      refine ⟨_, ret', by rw [g1], g2, fun r' => ?_⟩
      exact .relay (s := { s with notYet := false }) hL hL' (h.same rfl rfl) hdd ⟨hs.state, hs.costate, hs.enlState, hs.enlCostate⟩ hnm hkey (g3 r')
  | @stride Kp Kp' K K' Kn Kn' Lp L Lp' L' σ σ' ps hLp hL hLp' hL' hps h h' hrank nm o o' l rest nm' Ln Ln' hrest ih =>
    have hb : runStride (some (strider ps)) ⟨ret, some (carried nm Lp Lp' y)⟩ = .ok ⟨ret, some (carried nm L L' (thin σ y.1, thin σ y.2.1, thin σ' y.2.2))⟩ := by
      unfold runStride carried
      dsimp only
      rw [C80_stride hLp hL hLp' hL' hps h h' hrank nm y]
      rfl
    rw [runStages_stride, hb]
    unfold Steps.run
    dsimp only
    obtain ⟨h1, h2⟩ := ih (thin σ y.1, thin σ y.2.1, thin σ' y.2.2) ret nofun
    refine ⟨h1, fun w hw => ?_⟩
    obtain ⟨l', ret', g1, g2, g3⟩ := h2 w hw
    exact ⟨_, ret', by rw [g1], g2, fun r' => .stride hLp hL hLp' hL' hps h h' hrank (g3 r')⟩

/-! ## The network -/

/-- The values at the end of the network. -/
noncomputable def computes [Fintype Kp] [Fintype Kp'] {n B : Nat} (q p : Fin n × Kp → ℝ) (fld : ∀ B, Sys2 (Fin n) (Fin B) Kp Kp' → ℝ → Sys2 (Fin n) (Fin B) Kp Kp' → Sys2 (Fin n) (Fin B) Kp Kp')
    (m : Method ℝ ℝ) (st : Steps n Kp Kp' K K') (x : Fin B × Kp' → ℝ) : Py (Sys2 (Fin n) (Fin B) K K') := last (runSys (fld B (q, p, x)) m [(q, p, x)]) >>= st.run

section
variable [Fintype Kp] [Fintype Kp'] {net : Net ℝ ℝ Θ Rb β} {r : Rb} {c : Cls Kp Kp' P R} {cfg : Block.Cfg ℝ ℝ Θ Rb} {n : Nat} {q p : Fin n × Kp → ℝ}
  {fld : ∀ B, Sys2 (Fin n) (Fin B) Kp Kp' → ℝ → Sys2 (Fin n) (Fin B) Kp Kp' → Sys2 (Fin n) (Fin B) Kp Kp'} {m : Method ℝ ℝ} {st : Steps n Kp Kp' K K'} {nm' : String} {Ln : Lay K} {Ln' : Lay K'}
  {key : String} {sh : List Nat}

theorem IsNet.run (h : IsNet net r c cfg q p fld m st nm' Ln Ln' key sh) {B : Nat} {X : Tensor ℝ} {x : Fin B × Kp' → ℝ} (hX : cfg.initialData X = .ok (enc c.dataLay "" B x)) :
    (∀ e, computes q p fld m st x = .error e → (runLayers r X net.layers net.strides ⟨.tensor X, none⟩).2 = .error e) ∧
    ∀ z, computes q p fld m st x = .ok z → (runLayers r X net.layers net.strides ⟨.tensor X, none⟩).2 = .ok ⟨output Ln' z (key, sh), some (carried nm' Ln Ln' z)⟩ ∧
      ∀ r' stem head notYet modules, IsNet (β := β) ⟨stem, (runLayers r X net.layers net.strides ⟨.tensor X, none⟩).1, net.strides, head, notYet, modules⟩ r' c cfg q p fld m st nm' Ln Ln' key sh := by
  obtain ⟨s, l, sh0, h1, h2, h3, h4, h5, h6, h7⟩ := h.stages
  have hl := runStages_layers r X net.layers net.strides ⟨.tensor X, none⟩
  rw [h1, runStages_block] at hl
  have hb : runBlock r X (cfg, s) ⟨.tensor X, none⟩ = match last (runSys (fld B (q, p, x)) m [(q, p, x)]) with
      | .error e => ((cfg, s), .error e)
      | .ok z => ((cfg, { s with notYet := false }), .ok ⟨.tensor X, some (carried cfg.name c.lay c.dataLay z)⟩) := by
    unfold runBlock
    have e : blockInput X (none : Option (Dicts3 ℝ)) = ⟨some X, none, none, none⟩ := rfl
    dsimp only
    rw [e, C80_first h.lay h.dataLay h2 h3 h4 h5 hX h6 r]
    cases last (runSys (fld B (q, p, x)) m [(q, p, x)]) <;> rfl
  rw [hb] at hl
  unfold computes
  cases hu : last (runSys (fld B (q, p, x)) m [(q, p, x)]) with
  | error er =>
    rw [hu] at hl
    refine ⟨fun e he => ?_, nofun⟩
    cases he
    exact (congrArg Prod.snd hl).symm
  | ok z =>
    rw [hu] at hl
    dsimp only at hl
    obtain ⟨g1, g2⟩ := C80_steps h7 z X (.tensor X) nofun
    constructor
    · intro e he
      have := congrArg Prod.snd hl
      dsimp only at this
      rw [← this]
      exact g1 e he
    · intro w hw
      obtain ⟨l', ret', k1, k2, k3⟩ := g2 w hw
      rw [k1] at hl
      dsimp only at hl
      refine ⟨?_, fun r' stem head notYet modules => ⟨h.lay, h.dataLay, { s with notYet := false }, l', sh0, ?_, h2.same rfl rfl, h3, h4, h5, h6, k3 r'⟩⟩
      · rw [← k2 _ rfl]
        exact (congrArg Prod.snd hl).symm
      · exact (congrArg Prod.fst hl).symm

/-- C80: a residual network, for every number of layers and blocks, every integration method, all particles, costates, enlargement values and inputs: the head is applied to the output of the last block, and this is the result
of: integrating the equations of the first block from its own state and the input, then step by step leaving out pixels, putting what is passed in the middle of larger particles, adding the own state and integrating the
equations of the next block.  If one of the integrations fails, its exception is raised. -/
theorem C80_network (h : IsNet net r c cfg q p fld m st nm' Ln Ln' key sh) {B : Nat} {x0 X : Tensor ℝ} {x : Fin B × Kp' → ℝ} (hstem : net.stem x0 = .ok X)
    (hX : cfg.initialData X = .ok (enc c.dataLay "" B x)) :
    (ResNet.forward net r x0).2 = computes q p fld m st x >>= fun z => net.head (.tensor (tab (B :: sh) (value Ln' B z.2.2 key))) := by
  obtain ⟨h1, h2⟩ := h.run hX
  unfold ResNet.forward
  rw [hstem]
  dsimp only
  cases hL : runLayers r X net.layers net.strides ⟨.tensor X, none⟩ with
  | mk l y =>
    rw [hL] at h1 h2
    cases hu : computes q p fld m st x with
    | error e =>
      have := h1 e hu
      dsimp only at this
      subst this
      rfl
    | ok z =>
      have := (h2 z hu).1
      dsimp only at this
      subst this
      show (match net.head (output Ln' z (key, sh)) with | .error e => _ | .ok y => _ : Net ℝ ℝ Θ Rb β × Py β).2 = net.head (output Ln' z (key, sh))
      cases net.head (output Ln' z (key, sh)) <;> rfl

/-- C80: after a pass in which all integrations succeeded the network computes the same function: also the values that were put around the passed particles at the first pass stay, whatever random numbers are drawn later. -/
theorem C80_again (h : IsNet net r c cfg q p fld m st nm' Ln Ln' key sh) {B : Nat} {x0 X : Tensor ℝ} {x : Fin B × Kp' → ℝ} (hstem : net.stem x0 = .ok X)
    (hX : cfg.initialData X = .ok (enc c.dataLay "" B x)) {z : Sys2 (Fin n) (Fin B) K K'} (hz : computes q p fld m st x = .ok z) (r' : Rb) :
    IsNet (ResNet.forward net r x0).1 r' c cfg q p fld m st nm' Ln Ln' key sh ∧ (ResNet.forward net r x0).1.stem = net.stem ∧ (ResNet.forward net r x0).1.head = net.head := by
  obtain ⟨g1, g2⟩ := (h.run hX).2 z hz
  unfold ResNet.forward
  rw [hstem]
  dsimp only
  cases hL : runLayers r X net.layers net.strides ⟨.tensor X, none⟩ with
  | mk l y =>
    rw [hL] at g1 g2
    dsimp only at g1
    subst g1
    dsimp only
    cases net.head (output Ln' z (key, sh)) with
    | error e => exact ⟨g2 r' _ _ _ _, rfl, rfl⟩
    | ok w => exact ⟨g2 r' _ _ _ _, rfl, rfl⟩

end

end Verif.Residual
