import Verif.Residual.Images

/-!
# C80: a concrete residual network

Images of 28×28 pixels with one channel, ten particles of 15×15 pixels (`res_net.py:20`), the up-down convolutional class with inflation 2.  After the first block the images are strided by 2; the second block has three more
channels and particles of 9×9 pixels; the third one has no own particles.
-/

namespace Verif.Residual
open Verif Verif.Tensor Verif.Assembly Verif.Whole Verif.Evolution Verif.Flow Verif.Later Verif.ResNet Verif.Models Verif.Conv

/-- The up-down convolutional class for particles of `h` by `w` and samples of `h'` by `w'` pixels. -/
noncomputable def imgCls (nl : ℝ → ℝ) (a b h w h' w' : Nat) : Cls (Imgs (Fin a) (Fin b) h w) (Imgs (Fin a) (Fin b) h' w') (ConvPar (Fin a) (Fin b)) (ConvPar (Fin a) (Fin b) → ℝ) :=
  (autodiffCls (layImages a b h w) (fun _ => upDownConv nl) fun _ => none).withData (layImages a b h' w') fun _ => upDownConv nl

/-- A block of a residual network; random numbers are numbered. -/
noncomputable def netCfg {a b h w h' w' : Nat} (nm : String) (c : Cls (Imgs (Fin a) (Fin b) h w) (Imgs (Fin a) (Fin b) h' w') (ConvPar (Fin a) (Fin b)) (ConvPar (Fin a) (Fin b) → ℝ))
    (ρ : Nat → (ConvPar (Fin a) (Fin b) → ℝ) × (ConvPar (Fin a) (Fin b) → ℝ)) (M : List ℝ → Method ℝ ℝ) : Block.Cfg ℝ ℝ Unit (Nat → ℝ) where
  name := nm
  concatenate := true
  concatDim := 1
  enlargementDims := some [2, 3]
  enlarge := true
  keepZero := false
  initialData := Shapes.initialData .upDownConv ⟨1, 1, .seq [15, 15], 2, 3⟩ .zero ⟨[], fun _ => [], fun _ => []⟩
  outKey := "q1"
  solve := solveWith M (fun _ dd => ofIntegrand (H := Unit) (D := Unit) ⟨rule c true 1 dd, fun _ _ => none, false, false⟩) (⟨false, false, none, none, none, [], 0, [], none⟩, ρ)
  mkState r _ _ n := (List.range n).map r
  mkCostate r _ _ n := (List.range n).map fun i => r (i + n)

variable {a b h w h' w' : Nat}

theorem net_isBlock (nm : String) (c : Cls (Imgs (Fin a) (Fin b) h w) (Imgs (Fin a) (Fin b) h' w') (ConvPar (Fin a) (Fin b)) (ConvPar (Fin a) (Fin b) → ℝ)) (hc : c.lay = layImages a b h w)
    (hc' : c.dataLay = layImages a b h' w') (ρ) (M : List ℝ → Method ℝ ℝ) :
    IsBlock (H := Unit) (D := Unit) c M (fun _ dd => ⟨rule c true 1 dd, fun _ _ => none, false, false⟩) (⟨false, false, none, none, none, [], 0, [], none⟩, ρ) (netCfg nm c ρ M) where
  solve := rfl
  concatenate := rfl
  integrand _ _ := ⟨rfl, fun _ _ => rfl, rfl⟩
  dim := by rw [hc]; exact (C67_image_layout a b h w).2 1 (by omega)
  key := by rw [hc']; exact ⟨[a, h', w'], by simp [layImages, netCfg]⟩

/-- A new block with own particles. -/
noncomputable def ownSt (a b h w : Nat) {n : Nat} (q p : Fin n × Imgs (Fin a) (Fin b) h w → ℝ) : Block.St ℝ ℝ Unit :=
  ⟨true, some [0, 1], none, some (enc (layImages a b h w) "" n q), some (enc (layImages a b h w) "p_" n p), none, none, [], 1, ()⟩

/-- A new block without. -/
noncomputable def relaySt : Block.St ℝ ℝ Unit := ⟨true, some [0, 1], none, none, none, none, none, [], 1, ()⟩

theorem net_solves (several : Bool) (nm : String) (nl : ℝ → ℝ) (ρ) (M : List ℝ → Method ℝ ℝ) (s : Block.St ℝ ℝ Unit) (hs : Block.Is s (.upTo 1)) (n : Nat) :
    Solves several (imgCls nl a b h w h' w') (netCfg nm (imgCls nl a b h w h' w') ρ M) s n
      (fun _ _ => Evolution.field2 (fun _ => upDownConv nl) (fun _ => upDownConv nl) (modeOf (imgCls nl a b h w h' w') n fun _ => 0)) (M [0, 1]) := by
  have hi : Indep (imgCls nl a b h w h' w') := indep_autodiff (layImages a b h w) (f := fun _ => upDownConv nl) (fun _ => (linear_upDownConv nl).affine) fun _ => none
  exact .plain (c := imgCls nl a b h w h' w') hi (net_isBlock nm (imgCls nl a b h w h' w') rfl rfl ρ M) (fun _ _ _ => rfl) rfl rfl hs fun _ => 0

theorem net_creates (nm : String) (c : Cls (Imgs (Fin a) (Fin b) h w) (Imgs (Fin a) (Fin b) h' w') (ConvPar (Fin a) (Fin b)) (ConvPar (Fin a) (Fin b) → ℝ)) (ρ) (M : List ℝ → Method ℝ ℝ)
    (a' b' H W : Nat) : Creates (netCfg nm c ρ M) (layImages a' b' H W) where
  on := rfl
  dims := ⟨[2, 3], rfl⟩
  keepZero := rfl
  mkState r _ _ n := by simp [netCfg]
  mkCostate r _ _ n := by simp [netCfg]
  names e he := by
    simp only [layImages, List.mem_cons, List.not_mem_nil, or_false] at he
    rcases he with rfl | rfl <;> simp

section
variable (nl : ℝ → ℝ) (M : List ℝ → Method ℝ ℝ) (ρ1 : Nat → (ConvPar (Fin 1) (Fin 2) → ℝ) × (ConvPar (Fin 1) (Fin 2) → ℝ)) (ρ2 ρ3 : Nat → (ConvPar (Fin 4) (Fin 8) → ℝ) × (ConvPar (Fin 4) (Fin 8) → ℝ))
  (q p : Fin 10 × Imgs (Fin 1) (Fin 2) 15 15 → ℝ) (q2 p2 : Fin 10 × Imgs (Fin 3) (Fin 6) 9 9 → ℝ)

/-- The network, without stem and head. -/
noncomputable def demo : Net ℝ ℝ Unit (Nat → ℝ) (Block.Result ℝ) where
  stem x := .ok x
  layers := [[(netCfg "b" (imgCls nl 1 2 15 15 28 28) ρ1 M, ownSt 1 2 15 15 q p)],
    [(netCfg "c" (imgCls nl 4 8 9 9 14 14) ρ2 M, ownSt 3 6 9 9 q2 p2), (netCfg "d" (imgCls nl 4 8 9 9 14 14) ρ3 M, relaySt)]]
  strides := [some ⟨[2, 2], [2, 3]⟩, none]
  head r := .ok r
  notYet := true
  modules := []

/-- Its equations. -/
noncomputable def eqs (a b h w h' w' : Nat) : ∀ B, Sys2 (Fin 10) (Fin B) (Imgs (Fin a) (Fin b) h w) (Imgs (Fin a) (Fin b) h' w') → ℝ → Sys2 (Fin 10) (Fin B) (Imgs (Fin a) (Fin b) h w) (Imgs (Fin a) (Fin b) h' w') →
    Sys2 (Fin 10) (Fin B) (Imgs (Fin a) (Fin b) h w) (Imgs (Fin a) (Fin b) h' w') :=
  fun _ _ => Evolution.field2 (fun _ => upDownConv nl) (fun _ => upDownConv nl) (modeOf (imgCls nl a b h w h' w') 10 fun _ => 0)

/-- Its steps: the particles of 7×7 pixels that are left are put in the middle of 9×9 pixels. -/
noncomputable def demoSteps (f g : Fin 10 × Imgs (Fin 1) (Fin 2) 9 9 → ℝ) :
    Steps 10 (Imgs (Fin 1) (Fin 2) 15 15) (Imgs (Fin 1) (Fin 2) 28 28) (Imgs (Fin 4) (Fin 8) 9 9) (Imgs (Fin 4) (Fin 8) 14 14) :=
  .stride (thinImages 2 (h := 15) (w := 15)) (thinImages 2 (h := 28) (w := 28))
    (.block (midImages (show 7 ≤ 9 by decide) (show 7 ≤ 9 by decide)) f g (sideImages 1 2 3 6 9 9) (sideImages 1 2 3 6 14 14) q2 p2 (eqs nl 4 8 9 9 14 14) (M [0, 1])
      (.relay (eqs nl 4 8 9 9 14 14) (M [0, 1]) .nil))

/-- The hypotheses of `C80_network`: for whatever random numbers `r` there are values with which the new network realises these steps. -/
theorem demo_isNet (r : Nat → ℝ) : ∃ f g, IsNet (demo nl M ρ1 ρ2 ρ3 q p q2 p2) r (imgCls nl 1 2 15 15 28 28) (netCfg "b" (imgCls nl 1 2 15 15 28 28) ρ1 M) q p (eqs nl 1 2 15 15 28 28) (M [0, 1])
    (demoSteps nl M q2 p2 f g) "d" (layImages 4 8 9 9) (layImages 4 8 14 14) "q1" [4, 14, 14] := by
  have hin := C80_image_middle (show 7 ≤ 9 by decide) (show 7 ≤ 9 by decide) 1 2
  obtain ⟨f, g, s1, hw, _⟩ := C80_fresh (layImages_ok 1 2 7 7) (layImages_ok 1 2 9 9) (layImages_ok 3 6 9 9) hin (samePixels_images 1 2 3 6 9 9)
    (netCfg "c" (imgCls nl 4 8 9 9 14 14) ρ2 M) (net_creates "c" _ ρ2 M 3 6 9 9) (s := ownSt 3 6 9 9 q2 p2) rfl rfl rfl q2 p2 rfl rfl r "b"
  have hs := C80_image_stride 2 1 2 15 15
  have hs' := C80_image_stride 2 1 2 28 28
  have hpl := ((C79_image_classes (netCfg "c" (imgCls nl 4 8 9 9 14 14) ρ2 M) rfl "b" 1 2 3 6 9 9 14 14).1 (show "b" < "c" by decide)) (imgCls nl 4 8 9 9 14 14) rfl rfl
  refine ⟨f, g, layImages_ok 1 2 15 15, layImages_ok 1 2 28 28, ownSt 1 2 15 15 q p, _, [1, 28, 28], rfl, net_solves false "b" nl ρ1 M _ ⟨rfl, rfl⟩ 10, (C67_image_layout 1 2 28 28).2 1 (by decide), rfl, rfl,
    by simp [imgCls, Cls.withData, layImages, netCfg], ?_⟩
  refine .stride (layImages_ok 1 2 15 15) (layImages_ok 1 2 (15 / 2) (15 / 2)) (layImages_ok 1 2 28 28) (layImages_ok 1 2 (28 / 2) (28 / 2)) (allowed_images (by decide)) hs hs' rfl ?_
  refine .block (sh := [4, 14, 14]) (net_solves true "c" nl ρ2 M _ ⟨rfl, rfl⟩ 10) hpl rfl rfl hw (by simp [imgCls, Cls.withData, layImages, netCfg]) ?_
  exact .relay (c := imgCls nl 4 8 9 9 14 14) (sh := [4, 14, 14]) (layImages_ok 4 8 9 9) (layImages_ok 4 8 14 14) (net_solves false "d" nl ρ3 M relaySt ⟨rfl, rfl⟩ 10) ((C67_image_layout 4 8 14 14).2 1 (by decide)) ⟨rfl, rfl, rfl, rfl⟩
    (show "c" ≠ "d" by decide) (by simp [imgCls, Cls.withData, layImages, netCfg]) .nil

theorem demo_initial (ρ) (B : Nat) (X : Tensor ℝ) (hw : X.WF) (hs : X.shape = [B, 1, 28, 28]) :
    (netCfg "b" (imgCls nl 1 2 15 15 28 28) ρ M).initialData X = .ok (enc (layImages 1 2 28 28) "" B (dataImages X B 1 2 28 28)) :=
  (C67_image_initial ⟨1, 1, .seq [15, 15], 2, 3⟩ ⟨[], fun _ => [], fun _ => []⟩ X hw B 1 28 28 hs).2.2

/-- `C80_network` for this network and every batch of images. -/
example (r : Nat → ℝ) : ∃ f g, ∀ (B : Nat) (X : Tensor ℝ), X.WF → X.shape = [B, 1, 28, 28] →
    (ResNet.forward (demo nl M ρ1 ρ2 ρ3 q p q2 p2) r X).2 = computes q p (eqs nl 1 2 15 15 28 28) (M [0, 1]) (demoSteps nl M q2 p2 f g) (dataImages X B 1 2 28 28) >>= fun z =>
      .ok (.tensor (tab [B, 4, 14, 14] (value (layImages 4 8 14 14) B z.2.2 "q1"))) := by
  obtain ⟨f, g, h⟩ := demo_isNet nl M ρ1 ρ2 ρ3 q p q2 p2 r
  exact ⟨f, g, fun B X hw hs => C80_network h rfl (demo_initial nl M ρ1 B X hw hs)⟩

theorem eqs_bySample (a b h w h' w' : Nat) : BySample (eqs nl a b h w h' w') := by
  intro B B' g z t x
  simp only [eqs, Evolution.field2, Evolution.select, rowwise_upDownConv nl (Fin B') (Fin B) g]

/-- `C80_sample` for this network with the Euler method: sample 4 of seven images and sample 0 of three. -/
example (r : Nat → ℝ) (X X' : Tensor ℝ) (hw : X.WF) (hs : X.shape = [7, 1, 28, 28]) (hw' : X'.WF) (hs' : X'.shape = [3, 1, 28, 28]) (hx : ∀ i < 28, ∀ j < 28, pixel X 4 0 i j = pixel X' 0 0 i j) :
    (∃ e, (ResNet.forward (demo nl Flow.euler ρ1 ρ2 ρ3 q p q2 p2) r X).2 = .error e ∧ (ResNet.forward (demo nl Flow.euler ρ1 ρ2 ρ3 q p q2 p2) r X').2 = .error e) ∨
    ∃ T T', (ResNet.forward (demo nl Flow.euler ρ1 ρ2 ρ3 q p q2 p2) r X).2 = .ok (.tensor T) ∧ (ResNet.forward (demo nl Flow.euler ρ1 ρ2 ρ3 q p q2 p2) r X').2 = .ok (.tensor T') ∧
      T.shape = [7, 4, 14, 14] ∧ T'.shape = [3, 4, 14, 14] ∧ ∀ idx, T.get? (4 :: idx) = T'.get? (0 :: idx) := by
  obtain ⟨f, g, h⟩ := demo_isNet nl Flow.euler ρ1 ρ2 ρ3 q p q2 p2 r
  refine C80_sample h (euler_fixed [0, 1]) (eqs_bySample nl 1 2 15 15 28 28) ⟨euler_fixed [0, 1], eqs_bySample nl 4 8 9 9 14 14, euler_fixed [0, 1], eqs_bySample nl 4 8 9 9 14 14, trivial⟩ rfl
    (demo_initial nl Flow.euler ρ1 7 X hw hs) rfl (demo_initial nl Flow.euler ρ1 3 X' hw' hs') (⟨4, by decide⟩ : Fin 7) (⟨0, by decide⟩ : Fin 3) ?_
  rintro (⟨i, j, k⟩ | k)
  · obtain rfl : i = 0 := Subsingleton.elim _ _
    exact hx j.1 j.2 k.1 k.2
  · rfl

/-- `C80_again`: a second pass with other random numbers computes the same function. -/
example (r r' : Nat → ℝ) : ∃ f g, ∀ (B : Nat) (X : Tensor ℝ), X.WF → X.shape = [B, 1, 28, 28] → ∀ z, computes q p (eqs nl 1 2 15 15 28 28) (M [0, 1]) (demoSteps nl M q2 p2 f g) (dataImages X B 1 2 28 28) = .ok z →
    (ResNet.forward (ResNet.forward (demo nl M ρ1 ρ2 ρ3 q p q2 p2) r X).1 r' X).2 = .ok (.tensor (tab [B, 4, 14, 14] (value (layImages 4 8 14 14) B z.2.2 "q1"))) := by
  obtain ⟨f, g, h⟩ := demo_isNet nl M ρ1 ρ2 ρ3 q p q2 p2 r
  refine ⟨f, g, fun B X hw hs z hz => ?_⟩
  obtain ⟨h1, h2, h3⟩ := C80_again h rfl (demo_initial nl M ρ1 B X hw hs) hz r'
  rw [C80_network h1 (by rw [h2]; rfl) (demo_initial nl M ρ1 B X hw hs), hz, h3]
  rfl

/-- The integrations of this network with the Euler method succeed. -/
example (r : Nat → ℝ) (B : Nat) (X : Tensor ℝ) (hw : X.WF) (hs : X.shape = [B, 1, 28, 28]) : ∃ T, (ResNet.forward (demo nl Flow.euler ρ1 ρ2 ρ3 q p q2 p2) r X).2 = .ok (.tensor T) := by
  obtain ⟨f, g, h⟩ := demo_isNet nl Flow.euler ρ1 ρ2 ρ3 q p q2 p2 r
  rw [C80_network h rfl (demo_initial nl Flow.euler ρ1 B X hw hs)]
  exact ⟨_, rfl⟩

/-- `C80_stored`: after the first pass the second block is `Ready`. -/
example (r : Nat → ℝ) : ∃ s f g, Ready (layImages 1 2 7 7) (layImages 1 2 9 9) 10 s ∧ ∀ r' nm, Widening (netCfg "c" (imgCls nl 4 8 9 9 14 14) ρ2 M) r' s s nm (layImages 1 2 7 7) (layImages 1 2 9 9)
    (midImages (show 7 ≤ 9 by decide) (show 7 ≤ 9 by decide)) 10 f g := by
  have hin := C80_image_middle (show 7 ≤ 9 by decide) (show 7 ≤ 9 by decide) 1 2
  obtain ⟨_, _, s1, _, hr, _⟩ := C80_fresh (layImages_ok 1 2 7 7) (layImages_ok 1 2 9 9) (layImages_ok 3 6 9 9) hin (samePixels_images 1 2 3 6 9 9)
    (netCfg "c" (imgCls nl 4 8 9 9 14 14) ρ2 M) (net_creates "c" _ ρ2 M 3 6 9 9) (s := ownSt 3 6 9 9 q2 p2) rfl rfl rfl q2 p2 rfl rfl r "b"
  obtain ⟨f, g, h⟩ := C80_stored (layImages_ok 1 2 7 7) (layImages_ok 1 2 9 9) hin (netCfg "c" (imgCls nl 4 8 9 9 14 14) ρ2 M) rfl (hr 1)
  exact ⟨_, f, g, hr 1, h⟩

/-- `C80_failed_first`: a method that fails. -/
example (r : Nat → ℝ) (y : Sys2 (Fin 10) (Fin 3) (Imgs (Fin 1) (Fin 2) 7 7) (Imgs (Fin 1) (Fin 2) 14 14)) :
    ∃ s', Block.forward (netCfg "c" (imgCls nl 4 8 9 9 14 14) ρ2 fun _ => .fail .assertionError) r (passed "b" (layImages 1 2 7 7) (layImages 1 2 14 14) y) (ownSt 3 6 9 9 q2 p2) = (s', .error .assertionError) ∧
      ∀ r' S C D, Block.forward (netCfg "c" (imgCls nl 4 8 9 9 14 14) ρ2 fun _ => .fail .assertionError) r' ⟨none, some S, some C, some D⟩ s' = (s', .error .valueError) :=
  C80_failed_first (layImages_ok 1 2 7 7) (layImages_ok 1 2 9 9) (layImages_ok 3 6 9 9) (C80_image_middle (show 7 ≤ 9 by decide) (show 7 ≤ 9 by decide) 1 2) (samePixels_images 1 2 3 6 9 9)
    (net_creates "c" _ ρ2 _ 3 6 9 9) (s := ownSt 3 6 9 9 q2 p2) rfl rfl rfl rfl rfl (net_solves true "c" nl ρ2 (fun _ => .fail .assertionError) _ ⟨rfl, rfl⟩ 10)
    (((C79_image_classes (netCfg "c" (imgCls nl 4 8 9 9 14 14) ρ2 fun _ => .fail .assertionError) rfl "b" 1 2 3 6 9 9 14 14).1 (show "b" < "c" by decide)) (imgCls nl 4 8 9 9 14 14) rfl rfl)
    (sh := [4, 14, 14]) (by simp [imgCls, Cls.withData, layImages, netCfg]) r y .assertionError fun _ _ => rfl

/-- `C80_rowwise` and `C80_equivariant` for its classes. -/
example (a b h w h' w' : Nat) (ρ : Nat → (ConvPar (Fin a) (Fin b) → ℝ) × (ConvPar (Fin a) (Fin b) → ℝ)) : BySample (eqs nl a b h w h' w') ∧ ByParticle (eqs nl a b h w h' w') :=
  ⟨C80_rowwise (net_solves false "b" nl ρ Flow.euler relaySt ⟨rfl, rfl⟩ 10) (rowwise_upDownConv nl) (euler_fixed [0, 1]),
    C80_equivariant (net_solves false "b" nl ρ Flow.euler relaySt ⟨rfl, rfl⟩ 10) (equi_autodiff (layImages a b h w) (rowwise_upDownConv nl) fun _ => none)⟩

end

/-! ## The order of the particles -/

/-- The same blocks without enlargement. -/
noncomputable def plainCfg {a b h w h' w' : Nat} (nm : String) (c : Cls (Imgs (Fin a) (Fin b) h w) (Imgs (Fin a) (Fin b) h' w') (ConvPar (Fin a) (Fin b)) (ConvPar (Fin a) (Fin b) → ℝ))
    (ρ : Nat → (ConvPar (Fin a) (Fin b) → ℝ) × (ConvPar (Fin a) (Fin b) → ℝ)) (M : List ℝ → Method ℝ ℝ) : Block.Cfg ℝ ℝ Unit (Nat → ℝ) := { netCfg nm c ρ M with enlarge := false }

theorem plain_isBlock (nm : String) (c : Cls (Imgs (Fin a) (Fin b) h w) (Imgs (Fin a) (Fin b) h' w') (ConvPar (Fin a) (Fin b)) (ConvPar (Fin a) (Fin b) → ℝ)) (hc : c.lay = layImages a b h w)
    (hc' : c.dataLay = layImages a b h' w') (ρ) (M : List ℝ → Method ℝ ℝ) :
    IsBlock (H := Unit) (D := Unit) c M (fun _ dd => ⟨rule c true 1 dd, fun _ _ => none, false, false⟩) (⟨false, false, none, none, none, [], 0, [], none⟩, ρ) (plainCfg nm c ρ M) :=
  let h := net_isBlock nm c hc hc' ρ M
  ⟨h.solve, h.concatenate, h.integrand, h.dim, h.key⟩

section
variable (nl : ℝ → ℝ) (M : List ℝ → Method ℝ ℝ) (ρ1 : Nat → (ConvPar (Fin 1) (Fin 2) → ℝ) × (ConvPar (Fin 1) (Fin 2) → ℝ)) (ρ2 : Nat → (ConvPar (Fin 4) (Fin 8) → ℝ) × (ConvPar (Fin 4) (Fin 8) → ℝ))

/-- A network with a striding block between two blocks; the particles of the second one have 7×7 pixels. -/
noncomputable def small (q p : Fin 10 × Imgs (Fin 1) (Fin 2) 15 15 → ℝ) (q2 p2 : Fin 10 × Imgs (Fin 3) (Fin 6) 7 7 → ℝ) : Net ℝ ℝ Unit (Nat → ℝ) (Block.Result ℝ) where
  stem x := .ok x
  layers := [[(plainCfg "b" (imgCls nl 1 2 15 15 28 28) ρ1 M, ownSt 1 2 15 15 q p)], [(plainCfg "c" (imgCls nl 4 8 7 7 14 14) ρ2 M, ownSt 3 6 7 7 q2 p2)]]
  strides := [some ⟨[2, 2], [2, 3]⟩, none]
  head r := .ok r
  notYet := true
  modules := []

noncomputable def smallSteps (q2 p2 : Fin 10 × Imgs (Fin 3) (Fin 6) 7 7 → ℝ) :
    Steps 10 (Imgs (Fin 1) (Fin 2) 15 15) (Imgs (Fin 1) (Fin 2) 28 28) (Imgs (Fin 4) (Fin 8) 7 7) (Imgs (Fin 4) (Fin 8) 14 14) :=
  .stride (thinImages 2 (h := 15) (w := 15)) (thinImages 2 (h := 28) (w := 28))
    (.block id (fun _ => 0) (fun _ => 0) (sideImages 1 2 3 6 7 7) (sideImages 1 2 3 6 14 14) q2 p2 (eqs nl 4 8 7 7 14 14) (M [0, 1]) .nil)

theorem small_isNet (r : Nat → ℝ) (q p : Fin 10 × Imgs (Fin 1) (Fin 2) 15 15 → ℝ) (q2 p2 : Fin 10 × Imgs (Fin 3) (Fin 6) 7 7 → ℝ) :
    IsNet (small nl M ρ1 ρ2 q p q2 p2) r (imgCls nl 1 2 15 15 28 28) (plainCfg "b" (imgCls nl 1 2 15 15 28 28) ρ1 M) q p (eqs nl 1 2 15 15 28 28) (M [0, 1])
      (smallSteps nl M q2 p2) "c" (layImages 4 8 7 7) (layImages 4 8 14 14) "q1" [4, 14, 14] := by
  have solves : ∀ (a b h w h' w' : Nat) (several : Bool) nm ρ (s : Block.St ℝ ℝ Unit), Block.Is s (.upTo 1) →
      Solves several (imgCls nl a b h w h' w') (plainCfg nm (imgCls nl a b h w h' w') ρ M) s 10 (eqs nl a b h w h' w') (M [0, 1]) := by
    intro a b h w h' w' several nm ρ s hs
    have hi : Indep (imgCls nl a b h w h' w') := indep_autodiff (layImages a b h w) (f := fun _ => upDownConv nl) (fun _ => (linear_upDownConv nl).affine) fun _ => none
    exact .plain (c := imgCls nl a b h w h' w') hi (plain_isBlock nm (imgCls nl a b h w h' w') rfl rfl ρ M) (fun _ _ _ => rfl) rfl rfl hs fun _ => 0
  have hpl := ((C79_image_classes (plainCfg "c" (imgCls nl 4 8 7 7 14 14) ρ2 M) rfl "b" 1 2 3 6 7 7 14 14).1 (show "b" < "c" by decide)) (imgCls nl 4 8 7 7 14 14) rfl rfl
  refine ⟨layImages_ok 1 2 15 15, layImages_ok 1 2 28 28, ownSt 1 2 15 15 q p, _, [1, 28, 28], rfl, solves 1 2 15 15 28 28 false "b" ρ1 _ ⟨rfl, rfl⟩, (C67_image_layout 1 2 28 28).2 1 (by decide), rfl, rfl,
    by simp [imgCls, Cls.withData, layImages, plainCfg, netCfg], ?_⟩
  refine .stride (layImages_ok 1 2 15 15) (layImages_ok 1 2 (15 / 2) (15 / 2)) (layImages_ok 1 2 28 28) (layImages_ok 1 2 (28 / 2) (28 / 2)) (allowed_images (by decide)) (C80_image_stride 2 1 2 15 15)
    (C80_image_stride 2 1 2 28 28) rfl ?_
  exact .block (sh := [4, 14, 14]) (solves 4 8 7 7 14 14 true "c" ρ2 _ ⟨rfl, rfl⟩) hpl rfl rfl (C80_plain (plainCfg "c" (imgCls nl 4 8 7 7 14 14) ρ2 M) (s := ownSt 3 6 7 7 q2 p2) (.inl rfl) r "b" _ _)
    (by simp [imgCls, Cls.withData, layImages, plainCfg, netCfg]) .nil

theorem eqs_byParticle (a b h w h' w' : Nat) : ByParticle (eqs nl a b h w h' w') := by
  intro B σ z t x
  have heq : Equi (imgCls nl a b h w h' w') := equi_autodiff (layImages a b h w) (rowwise_upDownConv nl) fun _ => none
  have h1 := heq.2 10 (fun _ => 0) σ x.1 x.2.1
  simp only [eqs, Evolution.field2, modeOf, permute, h1.1, h1.2, rowwise_upDownConv nl (Fin 10) (Fin 10) σ]

/-- `C80_order` for this network. -/
example (r r' : Nat → ℝ) (q p : Fin 10 × Imgs (Fin 1) (Fin 2) 15 15 → ℝ) (q2 p2 : Fin 10 × Imgs (Fin 3) (Fin 6) 7 7 → ℝ) (π : Equiv.Perm (Fin 10)) (B : Nat) (X : Tensor ℝ) (hw : X.WF)
    (hs : X.shape = [B, 1, 28, 28]) :
    (ResNet.forward (small nl M ρ1 ρ2 (rows π q) (rows π p) (rows π q2) (rows π p2)) r' X).2 = (ResNet.forward (small nl M ρ1 ρ2 q p q2 p2) r X).2 :=
  C80_order π (small_isNet nl M ρ1 ρ2 r q p q2 p2) (small_isNet nl M ρ1 ρ2 r' (rows π q) (rows π p) (rows π q2) (rows π p2)) rfl rfl (eqs_byParticle nl 1 2 15 15 28 28)
    ⟨eqs_byParticle nl 4 8 7 7 14 14, trivial⟩ rfl (demo_initial nl M ρ1 B X hw hs)

end

end Verif.Residual
