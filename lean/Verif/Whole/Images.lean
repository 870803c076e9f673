import Verif.Whole.Instance
import Verif.Conv.Props

/-!
# C67 for images: the convolutional classes on dictionaries of tensors
-/

namespace Verif.Whole
open Verif Verif.Tensor Verif.Assembly Verif.Evolution Verif.Flow Verif.Models Verif.Conv

/-! ## The layout -/

/-- Index `[a, i, j]` of a row of shape `[c, h, w]`. -/
def triple (c h w : Nat) : List Nat → Option (Fin c × Px h w)
  | [a, i, j] => if hp : a < c ∧ i < h ∧ j < w then some (⟨a, hp.1⟩, ⟨i, hp.2.1⟩, ⟨j, hp.2.2⟩) else none
  | _ => none

/-- `q1` of shape `[n, c, h, w]` and `q2` of shape `[n, e, h, w]`: `shooting_models.py:1288-1302, 1360-1374, 2119-2133`, with the sizes of
`parameter_initialization.py:152, 166, 181`. -/
def layImages (c e h w : Nat) : Lay (Imgs (Fin c) (Fin e) h w) where
  names := [("q1", [c, h, w]), ("q2", [e, h, w])]
  key
    | .inl _ => "q1"
    | .inr _ => "q2"
  idx
    | .inl k => [k.1.1, k.2.1.1, k.2.2.1]
    | .inr k => [k.1.1, k.2.1.1, k.2.2.1]
  coord s l := if s = "q1" then (triple c h w l).map .inl else if s = "q2" then (triple e h w l).map .inr else none

theorem triple_some {c h w : Nat} {l : List Nat} (hv : Valid [c, h, w] l) : ∃ k, triple c h w l = some k ∧ [k.1.1, k.2.1.1, k.2.2.1] = l := by
  cases hv with
  | @cons a _ as _ ha hv =>
    cases hv with
    | @cons i _ is _ hi hv =>
      cases hv with
      | @cons j _ js _ hj hv =>
        cases hv
        exact ⟨(⟨a, ha⟩, ⟨i, hi⟩, ⟨j, hj⟩), by simp [triple, ha, hi, hj], rfl⟩

theorem triple_back {c h w : Nat} (k : Fin c × Px h w) : triple c h w [k.1.1, k.2.1.1, k.2.2.1] = some k := by
  simp [triple]

theorem triple_valid {c h w : Nat} (k : Fin c × Px h w) : Valid [c, h, w] [k.1.1, k.2.1.1, k.2.2.1] := .cons k.1.2 (.cons k.2.1.2 (.cons k.2.2.2 .nil))

theorem layImages_ok (c e h w : Nat) : (layImages c e h w).Ok where
  sorted := by show List.Pairwise (· < ·) ["q1", "q2"]; decide
  ne := by simp [layImages]
  into k := by
    rcases k with k | k
    · exact ⟨[c, h, w], by simp [layImages], triple_valid k, by simp [layImages, triple_back]⟩
    · exact ⟨[e, h, w], by simp [layImages], triple_valid k, by simp [layImages, triple_back]⟩
  onto x hx idx hv := by
    simp only [layImages, List.mem_cons, List.not_mem_nil, or_false] at hx
    rcases hx with rfl | rfl
    · obtain ⟨k, h1, h2⟩ := triple_some hv
      exact ⟨.inl k, by simp [layImages, h1], rfl, h2⟩
    · obtain ⟨k, h1, h2⟩ := triple_some hv
      exact ⟨.inr k, by simp [layImages, h1], rfl, h2⟩

/-- C67: the layout of the convolutional classes: every channel and pixel has exactly one place, and the concatenation dimension of the classes for images (1) exists, also
with up to two more. -/
theorem C67_image_layout (c e h w : Nat) : (layImages c e h w).Ok ∧ ∀ dim, dim ≤ 3 → DimOk (layImages c e h w) dim := by
  refine ⟨layImages_ok c e h w, fun dim hd => ⟨by omega, ?_⟩⟩
  simp [layImages, hd]

/-! ## Input tensors -/

/-- The element of a tensor with four dimensions. -/
noncomputable def pixel (X : Tensor ℝ) (b c i j : Nat) : ℝ := (X.get? [b, c, i, j]).getD 0

/-- `q1` are the images, `q2` is zero. -/
noncomputable def dataImages (X : Tensor ℝ) (B c e h w : Nat) : Fin B × Imgs (Fin c) (Fin e) h w → ℝ
  | (b, .inl k) => pixel X b k.1 k.2.1 k.2.2
  | (_, .inr _) => 0

/-- C67: a batch of images becomes the data whose `q1` are the images; `q2` starts at zero, with as many channels as the inflation factor asks for. -/
theorem C67_image_initial (cfg : Shapes.Cfg) (l : Shapes.Learned ℝ) (X : Tensor ℝ) (hw : X.WF) (B c h w : Nat) (hs : X.shape = [B, c, h, w]) :
    Shapes.initialData .simpleConv cfg .zero l X = .ok (enc (layImages c c h w) "" B (dataImages X B c c h w)) ∧
    Shapes.initialData .convBatch cfg .zero l X = .ok (enc (layImages c c h w) "" B (dataImages X B c c h w)) ∧
    Shapes.initialData .upDownConv cfg .zero l X = .ok (enc (layImages c (c * cfg.inflation) h w) "" B (dataImages X B c _ h w)) := by
  have hX : (X.WF ∧ X.shape ≠ []) := ⟨hw, by simp [hs]⟩
  have two : ∀ e : Nat, [("q1", X), ("q2", (Shapes.zeros [B, e, h, w] : Tensor ℝ))] =
      enc (layImages c e h w) "" B (dataImages X B c e h w) := by
    intro e
    have hr : HasRows (layImages c e h w) "" B [("q1", X), ("q2", (Shapes.zeros [B, e, h, w] : Tensor ℝ))] := by
      refine ⟨⟨by show List.Pairwise (· < ·) ["q1", "q2"]; decide, ?_⟩, by simp [layImages, hs, Shapes.zeros]⟩
      intro p hp
      simp only [List.mem_cons, List.not_mem_nil, or_false] at hp
      rcases hp with rfl | rfl
      · exact hX
      · exact ⟨zeros_wf _, by simp [Shapes.zeros]⟩
    rw [← enc_dec (layImages_ok c e h w) hr]
    congr 1
    funext k
    obtain ⟨b, k | k⟩ := k
    · simp [dec, layImages, SDict.get?, pixel, dataImages]
    · simp [dec, layImages, SDict.get?, zeros_get?, dataImages]
  refine ⟨?_, ?_, ?_⟩
  · rw [← two c, ← hs]; rfl
  · rw [← two c, ← hs]; rfl
  · rw [← two]
    unfold Shapes.initialData Shapes.zerosRepeat
    rw [hs]
    rfl

/-! ## A block for images -/

/-- A block of the up-down convolutional class, inflation 2, for images with one channel of 28×28 pixels and ten particles of 15×15 pixels (`res_net.py:20`); `concatenation_dim` is 1. -/
noncomputable def imgCfg (c : Cls (Imgs (Fin 1) (Fin 2) 15 15) (Imgs (Fin 1) (Fin 2) 28 28) (ConvPar (Fin 1) (Fin 2)) (ConvPar (Fin 1) (Fin 2) → ℝ)) (u : Bool)
    (ρ : Nat → (ConvPar (Fin 1) (Fin 2) → ℝ) × (ConvPar (Fin 1) (Fin 2) → ℝ)) (M : List ℝ → Method ℝ ℝ) : Block.Cfg ℝ ℝ Unit Unit where
  name := "b"
  concatenate := true
  concatDim := 1
  enlargementDims := none
  enlarge := false
  keepZero := false
  initialData := Shapes.initialData .upDownConv ⟨1, 1, .seq [15, 15], 2, 3⟩ .zero ⟨[], fun _ => [], fun _ => []⟩
  outKey := "q1"
  solve := solveWith M (fun _ dd => ofIntegrand (H := Unit) (D := Unit) ⟨rule c true 1 dd, fun _ _ => none, false, false⟩) (⟨u, false, none, none, none, [], 0, [], none⟩, ρ)
  mkState _ _ _ _ := []
  mkCostate _ _ _ _ := []

theorem img_isBlock (c : Cls (Imgs (Fin 1) (Fin 2) 15 15) (Imgs (Fin 1) (Fin 2) 28 28) (ConvPar (Fin 1) (Fin 2)) (ConvPar (Fin 1) (Fin 2) → ℝ)) (hc : c.lay = layImages 1 2 15 15) (hc' : c.dataLay = layImages 1 2 28 28) (u : Bool)
    (ρ : Nat → (ConvPar (Fin 1) (Fin 2) → ℝ) × (ConvPar (Fin 1) (Fin 2) → ℝ)) (M : List ℝ → Method ℝ ℝ) :
    IsBlock (H := Unit) (D := Unit) c M (fun _ dd => ⟨rule c true 1 dd, fun _ _ => none, false, false⟩) (⟨u, false, none, none, none, [], 0, [], none⟩, ρ) (imgCfg c u ρ M) where
  solve := rfl
  concatenate := rfl
  integrand _ _ := ⟨rfl, fun _ _ => rfl, rfl⟩
  dim := by rw [hc]; exact (C67_image_layout 1 2 15 15).2 1 (by norm_num)
  key := by rw [hc']; exact ⟨[1, 28, 28], by simp [layImages, imgCfg]⟩

/-- Ten particles with given states and costates. -/
noncomputable def imgSt (q p : Fin 10 × Imgs (Fin 1) (Fin 2) 15 15 → ℝ) : Block.St ℝ ℝ Unit :=
  ⟨true, some [0, 1], none, some (enc (layImages 1 2 15 15) "" 10 q), some (enc (layImages 1 2 15 15) "p_" 10 p), none, none, [], 1, ()⟩

theorem img_initial (c) (u : Bool) (ρ) (M : List ℝ → Method ℝ ℝ) (B : Nat) (X : Tensor ℝ) (hw : X.WF) (hs : X.shape = [B, 1, 28, 28]) :
    (imgCfg c u ρ M).initialData X = .ok (enc (layImages 1 2 28 28) "" B (dataImages X B 1 2 28 28)) :=
  (C67_image_initial ⟨1, 1, .seq [15, 15], 2, 3⟩ ⟨[], fun _ => [], fun _ => []⟩ X hw B 1 28 28 hs).2.2

/-- `C67_forward_sizes` for this block: every nonlinearity, every method, all particles, all batches of images. -/
example (nl : ℝ → ℝ) (ρ M) (q p : Fin 10 × Imgs (Fin 1) (Fin 2) 15 15 → ℝ) (B : Nat) (X : Tensor ℝ) (hw : X.WF) (hs : X.shape = [B, 1, 28, 28]) :
    Block.forward (imgCfg ((autodiffCls (layImages 1 2 15 15) (fun _ => upDownConv nl) fun _ => none).withData (layImages 1 2 28 28) fun _ => upDownConv nl) false ρ M) ()
        ⟨some X, none, none, none⟩ (imgSt q p) =
      report (layImages 1 2 15 15) (layImages 1 2 28 28) "b" "q1" [1, 28, 28] (imgSt q p) (.upTo 1)
        (runSys (Evolution.field2 (fun _ => upDownConv nl) (fun _ => upDownConv nl) (Evolution.autodiff (fun _ => upDownConv nl) (fun _ => none) fun _ => (0, 0))) (M [0, 1])
          [(q, p, dataImages X B 1 2 28 28)]) :=
  C67_forward_sizes (layImages_ok 1 2 15 15) (layImages_ok 1 2 28 28) _ (fun _ => (linear_upDownConv nl).affine) (fun _ => none) (img_isBlock _ rfl rfl false ρ M) rfl rfl (s := imgSt q p)
    ((C67_image_layout 1 2 28 28).2 1 (by norm_num)) (w := .upTo 1) ⟨rfl, rfl⟩ rfl rfl (img_initial _ _ _ _ B X hw hs) (by simp [layImages, imgCfg]) () fun _ => (0, 0)

end Verif.Whole
