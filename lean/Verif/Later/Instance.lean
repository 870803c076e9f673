import Verif.Later.Network

/-!
# C79: concrete networks
-/

namespace Verif.Later
open Verif Verif.Tensor Verif.Assembly Verif.Whole Verif.Evolution Verif.Flow Verif.Models

/-- A later block of the up-down class: it is called `nm` and sees 5 + 7 numbers per particle. -/
noncomputable def laterCfg (nm : String) (c : Cls (Two (Fin 1) (Fin 5) (Fin 7)) (Two (Fin 1) (Fin 5) (Fin 7)) (UpDownPar (Fin 5) (Fin 7)) (UpDownPar (Fin 5) (Fin 7) → ℝ)) (u a : Bool)
    (ρ : Nat → (UpDownPar (Fin 5) (Fin 7) → ℝ) × (UpDownPar (Fin 5) (Fin 7) → ℝ)) (M : List ℝ → Method ℝ ℝ) : Block.Cfg ℝ ℝ Unit Unit where
  name := nm
  concatenate := true
  concatDim := 2
  enlargementDims := none
  enlarge := false
  keepZero := false
  initialData := Shapes.initialData .upDown ⟨2, 1, .num 2, 3, 3⟩ .zero ⟨[], fun _ => [], fun _ => []⟩
  outKey := "q1"
  solve := solveWith M (fun _ dd => ofIntegrand (H := Unit) (D := Unit) ⟨rule c true 2 dd, fun _ _ => none, a, false⟩) (⟨u, false, none, none, none, [], 0, [], none⟩, ρ)
  mkState _ _ _ _ := []
  mkCostate _ _ _ _ := []

theorem later_isBlock (nm : String) (c : Cls (Two (Fin 1) (Fin 5) (Fin 7)) (Two (Fin 1) (Fin 5) (Fin 7)) (UpDownPar (Fin 5) (Fin 7)) (UpDownPar (Fin 5) (Fin 7) → ℝ))
    (hc : c.lay = layTwo 1 5 7) (hc' : c.dataLay = layTwo 1 5 7) (u a : Bool)
    (ρ : Nat → (UpDownPar (Fin 5) (Fin 7) → ℝ) × (UpDownPar (Fin 5) (Fin 7) → ℝ)) (M : List ℝ → Method ℝ ℝ) :
    IsBlock (H := Unit) (D := Unit) c M (fun _ dd => ⟨rule c true 2 dd, fun _ _ => none, a, false⟩) (⟨u, false, none, none, none, [], 0, [], none⟩, ρ) (laterCfg nm c u a ρ M) where
  solve := rfl
  concatenate := rfl
  integrand _ _ := ⟨rfl, fun _ _ => rfl, rfl⟩
  dim := by rw [hc]; exact ((C67_layouts 1 5 7).2 2 le_rfl).2.1
  key := by rw [hc']; exact ⟨[1, 5], by simp [layTwo, laterCfg]⟩

/-- Its own part: 3 + 1 numbers for each of the five particles. -/
noncomputable def laterSt (q p : Fin 5 × Two (Fin 1) (Fin 3) (Fin 1) → ℝ) : Block.St ℝ ℝ Unit :=
  ⟨true, some [0, 1], none, some (enc (layTwo 1 3 1) "" 5 q), some (enc (layTwo 1 3 1) "p_" 5 p), none, none, [], 2, ()⟩

variable (nl : ℝ → ℝ) (ρ ρ1 : Nat → (UpDownPar (Fin 5) (Fin 7) → ℝ) × (UpDownPar (Fin 5) (Fin 7) → ℝ)) (M : List ℝ → Method ℝ ℝ)

/-- The up-down class with 5 + 7 numbers. -/
noncomputable def bigCls : Cls (Two (Fin 1) (Fin 5) (Fin 7)) (Two (Fin 1) (Fin 5) (Fin 7)) (UpDownPar (Fin 5) (Fin 7)) (UpDownPar (Fin 5) (Fin 7) → ℝ) :=
  autodiffCls (layTwo 1 5 7) (fun _ => upDown nl) fun _ => none

noncomputable def bigRnn : Cls (Two (Fin 1) (Fin 5) (Fin 7)) (Two (Fin 1) (Fin 5) (Fin 7)) (UpDownPar (Fin 5) (Fin 7)) (UpDownPar (Fin 5) (Fin 7) → ℝ) :=
  rnnCls (layTwo 1 5 7) (fun _ => upDown nl) fun _ => none

theorem late_place (c : Cls (Two (Fin 1) (Fin 5) (Fin 7)) (Two (Fin 1) (Fin 5) (Fin 7)) (UpDownPar (Fin 5) (Fin 7)) (UpDownPar (Fin 5) (Fin 7) → ℝ)) (hc : c.lay = layTwo 1 5 7)
    (hc' : c.dataLay = layTwo 1 5 7) (u a : Bool) :
    Place c (laterCfg "c" c u a ρ M) "b" (layTwo 1 2 6) (layTwo 1 2 6) (layTwo 1 3 1) (layTwo 1 3 1) (sideTwo 1 2 6 3 1) (sideTwo 1 2 6 3 1) 2 :=
  ((C79_vector_classes (laterCfg "c" c u a ρ M) rfl "b" 1 2 6 3 1).1 (show "b" < "c" by decide)).2.1 c hc hc'

theorem early_place (c : Cls (Two (Fin 1) (Fin 5) (Fin 7)) (Two (Fin 1) (Fin 5) (Fin 7)) (UpDownPar (Fin 5) (Fin 7)) (UpDownPar (Fin 5) (Fin 7) → ℝ)) (hc : c.lay = layTwo 1 5 7)
    (hc' : c.dataLay = layTwo 1 5 7) (u a : Bool) :
    Place c (laterCfg "a" c u a ρ M) "b" (layTwo 1 2 6) (layTwo 1 2 6) (layTwo 1 3 1) (layTwo 1 3 1) ((Equiv.sumComm _ _).trans (sideTwo 1 3 1 2 6)) ((Equiv.sumComm _ _).trans (sideTwo 1 3 1 2 6)) 2 :=
  ((C79_vector_classes (laterCfg "a" c u a ρ M) rfl "b" 1 2 6 3 1).2 (show "a" < "b" by decide)).2.1 c hc hc'

/-- `C79_forward` for this block behind a block called "b", whichever way the names are ordered: every nonlinearity, every method, all particles, all batches. -/
example (q p : Fin 5 × Two (Fin 1) (Fin 3) (Fin 1) → ℝ) (B : Nat) (y : Sys2 (Fin 5) (Fin B) (Two (Fin 1) (Fin 2) (Fin 6)) (Two (Fin 1) (Fin 2) (Fin 6))) :
    Block.forward (laterCfg "c" (bigCls nl) false false ρ M) () (passed "b" (layTwo 1 2 6) (layTwo 1 2 6) y) (laterSt q p) =
      report (layTwo 1 5 7) (layTwo 1 5 7) "c" "q1" [1, 5] (laterSt q p) (.upTo 1) (runSys (Evolution.field2 (fun _ => upDown nl) (fun _ => upDown nl) (modeOf (bigCls nl) 5 fun _ => 0)) (M [0, 1])
        [start (sideTwo 1 2 6 3 1) (sideTwo 1 2 6 3 1) y q p]) :=
  C79_forward (indep_autodiff _ (fun _ => (linear_upDown nl).affine) _) (later_isBlock "c" (bigCls nl) rfl rfl false false ρ M) (fun _ _ => rfl) rfl rfl (late_place ρ M _ rfl rfl false false)
    (s := laterSt q p) (.inl rfl) (t := 1) ⟨rfl, rfl⟩ rfl rfl y (by simp [bigCls, autodiffCls, layTwo, laterCfg]) () fun _ => 0

example (q p : Fin 5 × Two (Fin 1) (Fin 3) (Fin 1) → ℝ) (B : Nat) (y : Sys2 (Fin 5) (Fin B) (Two (Fin 1) (Fin 2) (Fin 6)) (Two (Fin 1) (Fin 2) (Fin 6))) :
    Block.forward (laterCfg "a" (bigCls nl) false false ρ M) () (passed "b" (layTwo 1 2 6) (layTwo 1 2 6) y) (laterSt q p) =
      report (layTwo 1 5 7) (layTwo 1 5 7) "a" "q1" [1, 5] (laterSt q p) (.upTo 1) (runSys (Evolution.field2 (fun _ => upDown nl) (fun _ => upDown nl) (modeOf (bigCls nl) 5 fun _ => 0)) (M [0, 1])
        [start ((Equiv.sumComm _ _).trans (sideTwo 1 3 1 2 6)) ((Equiv.sumComm _ _).trans (sideTwo 1 3 1 2 6)) y q p]) :=
  C79_forward (indep_autodiff _ (fun _ => (linear_upDown nl).affine) _) (later_isBlock "a" (bigCls nl) rfl rfl false false ρ M) (fun _ _ => rfl) rfl rfl (early_place ρ M _ rfl rfl false false)
    (s := laterSt q p) (.inl rfl) (t := 1) ⟨rfl, rfl⟩ rfl rfl y (by simp [bigCls, autodiffCls, layTwo, laterCfg]) () fun _ => 0

/-- `C79_forward_rnn` with a method that starts with an evaluation at the initial values. -/
example (q p : Fin 5 × Two (Fin 1) (Fin 3) (Fin 1) → ℝ) (B : Nat) (y : Sys2 (Fin 5) (Fin B) (Two (Fin 1) (Fin 2) (Fin 6)) (Two (Fin 1) (Fin 2) (Fin 6))) :
    Block.forward (laterCfg "c" (bigRnn nl) true false ρ Flow.euler) () (passed "b" (layTwo 1 2 6) (layTwo 1 2 6) y) (laterSt q p) =
      report (layTwo 1 5 7) (layTwo 1 5 7) "c" "q1" [1, 5] (laterSt q p) (.upTo 1) (runSys (Evolution.field2 (fun _ => upDown nl) (fun _ => upDown nl) (modeAt (bigRnn nl) 5
          (Shooting.directParameters (upDown nl) (fun _ => none) (ρ 0).1 (beside (sideTwo 1 2 6 3 1) y.1 q) (beside (sideTwo 1 2 6 3 1) y.2.1 p), (ρ 0).1))) (Flow.euler [0, 1])
        [start (sideTwo 1 2 6 3 1) (sideTwo 1 2 6 3 1) y q p]) :=
  C79_forward_rnn (later_isBlock "c" (bigRnn nl) rfl rfl true false ρ Flow.euler) (fun _ _ => rfl) rfl rfl rfl (late_place ρ Flow.euler _ rfl rfl true false)
    (s := laterSt q p) (.inl rfl) (t := 1) ⟨rfl, rfl⟩ rfl rfl y (by simp [bigRnn, rnnCls, layTwo, laterCfg]) () _ fun z hz => by
      obtain rfl := Option.some.inj hz
      rfl

/-- `C79_analytic`: the block fails. -/
example (c : Cls (Two (Fin 1) (Fin 5) (Fin 7)) (Two (Fin 1) (Fin 5) (Fin 7)) (UpDownPar (Fin 5) (Fin 7)) (UpDownPar (Fin 5) (Fin 7) → ℝ)) (hc : c.lay = layTwo 1 5 7) (hc' : c.dataLay = layTwo 1 5 7)
    (q p : Fin 5 × Two (Fin 1) (Fin 3) (Fin 1) → ℝ) (B : Nat) (y : Sys2 (Fin 5) (Fin B) (Two (Fin 1) (Fin 2) (Fin 6)) (Two (Fin 1) (Fin 2) (Fin 6))) :
    Block.forward (laterCfg "c" c false true ρ Flow.euler) () (passed "b" (layTwo 1 2 6) (layTwo 1 2 6) y) (laterSt q p) = (laterSt q p, .error .valueError) :=
  C79_analytic (later_isBlock "c" c hc hc' false true ρ Flow.euler) (fun _ _ => rfl) (late_place ρ Flow.euler _ hc hc' false true)
    (s := laterSt q p) (.inl rfl) (t := 1) ⟨rfl, rfl⟩ rfl rfl y () (by simp [Flow.euler, Flow.eulerGo, firstEval])

/-! ## A network with two blocks -/

/-- The second stage. -/
noncomputable def secondStage (q p : Fin 5 × Two (Fin 1) (Fin 3) (Fin 1) → ℝ) :
    Stages 5 (Two (Fin 1) (Fin 2) (Fin 6)) (Two (Fin 1) (Fin 2) (Fin 6)) (Two (Fin 1) (Fin 5) (Fin 7)) (Two (Fin 1) (Fin 5) (Fin 7)) :=
  .cons (sideTwo 1 2 6 3 1) (sideTwo 1 2 6 3 1) q p (fun _ _ => Evolution.field2 (bigCls nl).rhs (bigCls nl).dataRhs (modeOf (bigCls nl) 5 fun _ => 0)) (M [0, 1]) .nil

theorem second_realizes (q p : Fin 5 × Two (Fin 1) (Fin 3) (Fin 1) → ℝ) :
    Realizes 5 (secondStage nl M q p) "b" (layTwo 1 2 6) (layTwo 1 2 6) "q1" [1, 2] [(laterCfg "c" (bigCls nl) false false ρ M, laterSt q p, ())] "c" (layTwo 1 5 7) (layTwo 1 5 7) "q1" [1, 5] :=
  .plain (sh' := [1, 5]) (indep_autodiff _ (fun _ => (linear_upDown nl).affine) _) (later_isBlock "c" (bigCls nl) rfl rfl false false ρ M) (fun _ _ => rfl) rfl rfl (late_place ρ M _ rfl rfl false false)
    (s := laterSt q p) (.inl rfl) (t := 1) ⟨rfl, rfl⟩ rfl rfl (by simp [bigCls, autodiffCls, layTwo, laterCfg]) (fun _ => 0) .nil

/-- The same block in RNN mode realises its stage. -/
example (q p : Fin 5 × Two (Fin 1) (Fin 3) (Fin 1) → ℝ) :
    Realizes 5 (.cons (sideTwo 1 2 6 3 1) (sideTwo 1 2 6 3 1) q p
      (fun _ z => Evolution.field2 (bigRnn nl).rhs (bigRnn nl).dataRhs (modeAt (bigRnn nl) 5 (kept (bigRnn nl) (ρ 0).1 (M [0, 1]) z))) (M [0, 1]) .nil) "b" (layTwo 1 2 6) (layTwo 1 2 6) "q1" [1, 2]
      [(laterCfg "c" (bigRnn nl) true false ρ M, laterSt q p, ())] "c" (layTwo 1 5 7) (layTwo 1 5 7) "q1" [1, 5] :=
  .rnn (sh' := [1, 5]) (later_isBlock "c" (bigRnn nl) rfl rfl true false ρ M) (fun _ _ => rfl) rfl rfl rfl (late_place ρ M _ rfl rfl true false)
    (s := laterSt q p) (.inl rfl) (t := 1) ⟨rfl, rfl⟩ rfl rfl (by simp [bigRnn, rnnCls, layTwo, laterCfg]) .nil

variable (ρ2 : Nat → (UpDownPar (Fin 2) (Fin 6) → ℝ) × (UpDownPar (Fin 2) (Fin 6) → ℝ))

/-- The network: the block of `Verif.Whole.Instance`, then the block above. -/
noncomputable def demoNet (q p : Fin 5 × Two (Fin 1) (Fin 2) (Fin 6) → ℝ) (q2 p2 : Fin 5 × Two (Fin 1) (Fin 3) (Fin 1) → ℝ) (X : Tensor ℝ) : Py (Block.Out ℝ) :=
  network (udCfg (autodiffCls (layTwo 1 2 6) (fun _ => upDown nl) fun _ => none) false ρ2 M, udSt q p, ()) [(laterCfg "c" (bigCls nl) false false ρ M, laterSt q2 p2, ())] X

/-- `C79_network`, hence `C79_chain`, for this network. -/
example (q p : Fin 5 × Two (Fin 1) (Fin 2) (Fin 6) → ℝ) (q2 p2 : Fin 5 × Two (Fin 1) (Fin 3) (Fin 1) → ℝ) (B : Nat) (X : Tensor ℝ) (hw : X.WF) (hs : X.shape = [B, 1, 2]) :
    demoNet nl ρ M ρ2 q p q2 p2 X = (last (runSys (Evolution.field2 (fun _ => upDown nl) (fun _ => upDown nl) (modeOf (autodiffCls (layTwo 1 2 6) (fun _ => upDown nl) fun _ => none) 5 fun _ => 0))
      (M [0, 1]) [(q, p, dataTwo X B 1 2 6)]) >>= (secondStage nl M q2 p2).run).map (outEnd (layTwo 1 5 7) (layTwo 1 5 7) "c" "q1" [1, 5]) :=
  C79_network (layTwo_ok 1 2 6) (layTwo_ok 1 2 6) (indep_autodiff _ (fun _ => (linear_upDown nl).affine) _) (ud_isBlock _ rfl rfl false ρ2 M) rfl rfl (s := udSt q p)
    ((C67_layouts 1 2 6).2 2 le_rfl).2.1 (t := 1) ⟨rfl, rfl⟩ rfl rfl (ud_initial _ _ _ _ B X hw hs) (by simp [udCfg, autodiffCls]) () (fun _ => 0) (second_realizes nl ρ M q2 p2)

/-- `C79_sample` for this network and the Euler method. -/
example (q p : Fin 5 × Two (Fin 1) (Fin 2) (Fin 6) → ℝ) (q2 p2 : Fin 5 × Two (Fin 1) (Fin 3) (Fin 1) → ℝ) (X X' : Tensor ℝ) (hw : X.WF) (hs : X.shape = [7, 1, 2]) (hw' : X'.WF)
    (hs' : X'.shape = [3, 1, 2]) (h : ∀ j < 2, elem X 4 0 j = elem X' 0 0 j) (o) (ho : demoNet nl ρ Flow.euler ρ2 q p q2 p2 X = .ok o) :
    ∃ o' t t', demoNet nl ρ Flow.euler ρ2 q p q2 p2 X' = .ok o' ∧ o.result = .tensor t ∧ o'.result = .tensor t' ∧ ∀ idx, t.get? (4 :: idx) = t'.get? (0 :: idx) := by
  obtain ⟨o', t, t', h1, _, _, h2, h3, h4⟩ := (C79_sample (c := autodiffCls (layTwo 1 2 6) (fun _ => upDown nl) fun _ => none) (layTwo_ok 1 2 6) (layTwo_ok 1 2 6)
    (indep_autodiff _ (fun _ => (linear_upDown nl).affine) _) (rowwise_upDown nl) (M := Flow.euler) euler_fixed
    (ud_isBlock _ rfl rfl false ρ2 Flow.euler) rfl rfl (s := udSt q p) ((C67_layouts 1 2 6).2 2 le_rfl).2.1 (t := 1) ⟨rfl, rfl⟩ rfl rfl (ud_initial _ _ _ _ 7 X hw hs)
    (ud_initial _ _ _ _ 3 X' hw' hs') (sh := [1, 2]) (by simp [layTwo, udCfg, autodiffCls]) ()
    (C79_samplewise (c := bigCls nl) (rowwise_upDown nl) (euler_fixed [0, 1]) (sideTwo 1 2 6 3 1) (sideTwo 1 2 6 3 1) q2 p2 (fun _ => 0) .nil trivial).1 (second_realizes nl ρ Flow.euler q2 p2)
    (⟨4, by decide⟩ : Fin 7) (⟨0, by decide⟩ : Fin 3) (by
      rintro (⟨i, j⟩ | k)
      · obtain rfl : i = 0 := Subsingleton.elim _ _
        exact h j.1 j.2
      · rfl)).2 o ho
  exact ⟨o', t, t', h1, h2, h3, h4⟩

/-- `C79_order` for this network. -/
example (q p : Fin 5 × Two (Fin 1) (Fin 2) (Fin 6) → ℝ) (q2 p2 : Fin 5 × Two (Fin 1) (Fin 3) (Fin 1) → ℝ) (B : Nat) (X : Tensor ℝ) (hw : X.WF) (hs : X.shape = [B, 1, 2]) (σ : Equiv.Perm (Fin 5)) :
    ((demoNet nl ρ M ρ2 (rows σ q) (rows σ p) (rows σ q2) (rows σ p2) X).map fun o => (o.result, o.data)) = (demoNet nl ρ M ρ2 q p q2 p2 X).map fun o => (o.result, o.data) :=
  C79_order (layTwo_ok 1 2 6) (layTwo_ok 1 2 6) (indep_autodiff _ (fun _ => (linear_upDown nl).affine) _) (equi_autodiff _ (rowwise_upDown nl) _) (ud_isBlock _ rfl rfl false ρ2 M) rfl rfl (s := udSt q p)
    ((C67_layouts 1 2 6).2 2 le_rfl).2.1 (t := 1) ⟨rfl, rfl⟩ rfl rfl (ud_initial _ _ _ _ B X hw hs) (sh := [1, 2]) (by simp [udCfg, autodiffCls]) () ()
    (C79_equivariant (c := bigCls nl) (equi_autodiff _ (rowwise_upDown nl) _) (M := M [0, 1]) (sideTwo 1 2 6 3 1) (sideTwo 1 2 6 3 1) q2 p2 (fun _ => 0) .nil trivial).1 σ
    (second_realizes nl ρ M q2 p2) (second_realizes nl ρ M (rows σ q2) (rows σ p2))

end Verif.Later
