import Verif.Shooting.Model

/-!
# The model classes of `shooting_models.py`

A tensor of shape `[particles, rows, features]` is a function `ι → C → D → ℝ` (`rows` is the
particle dimension).  `D` is the feature dimension of `q1`, `E` the one of `q2` (in the code the size of `D` times the
inflation factor).  A state is a function on `ι × K` as in `Verif.Shooting`, with
`K = C × D ⊕ C × E`.  The parameters of a linear layer with bias are a function on `O × Option I`:
`(o, some j)` is the entry of the weight matrix in row `o` and column `j`, `(o, none)` the entry of the bias; without bias a
function on `O × I`.  The nonlinearity `nl` and its derivative `dnl` are arbitrary functions here
(the ones of the code are in `Verif.Activation`).
-/

namespace Verif.Models
open Verif.Shooting

variable {ι C D E O I A B F : Type} [Fintype ι] [Fintype C] [Fintype D] [Fintype E] [Fintype O] [Fintype I] [Fintype B]

/-! ## Tensor operations -/

/-- A tensor with three dimensions. -/
abbrev T3 (ι C D : Type) := ι → C → D → ℝ

/-- Parameters of a linear layer with bias. -/
abbrev Layer (O I : Type) := O × Option I

/-- Elementwise function. -/
def map (f : ℝ → ℝ) (x : T3 ι C D) : T3 ι C D := fun i c d => f (x i c d)

/-- `F.linear(x, weight, bias)`, used by `SNN_Linear.forward` (`overwrite_classes.py:105-109`). -/
def linear (θ : Layer O I → ℝ) (x : T3 ι C I) : T3 ι C O := fun i c o => ∑ j, x i c j * θ (o, some j) + θ (o, none)

/-- `F.linear` without bias. -/
def linearNB (θ : O × I → ℝ) (x : T3 ι C I) : T3 ι C O := fun i c o => ∑ j, x i c j * θ (o, j)

/-- `torch.matmul(x, W)` of a batch with a matrix. -/
def matmul (x : T3 ι C O) (W : O → I → ℝ) : T3 ι C I := fun i c j => ∑ o, x i c o * W o j

/-- `torch.matmul` of two batches of matrices. -/
def bmm (x : T3 ι A B) (y : T3 ι B F) : T3 ι A F := fun i a f => ∑ b, x i a b * y i b f

/-- `x.transpose(1,2)`. -/
def transpose12 (x : T3 ι A B) : T3 ι B A := fun i b a => x i a b

/-- `m.t()`. -/
def t (m : A → B → ℝ) : B → A → ℝ := fun b a => m a b

/-- `torch.mean(x, dim=0)`. -/
noncomputable def mean0 (x : T3 ι A B) : A → B → ℝ := fun a b => (∑ i, x i a b) / Fintype.card ι

/-- The weight matrix of a layer with bias (`par_dict['weight']`). -/
def weightOf (θ : Layer O I → ℝ) : O → I → ℝ := fun o j => θ (o, some j)

/-- The weight matrix of a layer without bias. -/
def weightNB (θ : O × I → ℝ) : O → I → ℝ := fun o j => θ (o, j)

/-- Writing a weight matrix and a bias of shape `[rows, out]` into a layer.  A layer has one bias vector; with particle
dimension 1 the bias tensor has one row, which is that vector. -/
def layer [Unique C] (W : O → I → ℝ) (b : C → O → ℝ) : Layer O I → ℝ
  | (o, some j) => W o j
  | (o, none) => b default o

/-- Writing a weight matrix into a layer without bias. -/
def layerNB (W : O → I → ℝ) : O × I → ℝ := fun x => W x.1 x.2

/-! ## States -/

/-- Coordinates of one particle for models with `q1` and `q2`. -/
abbrev Two (C D E : Type) := C × D ⊕ C × E

/-- `s['q1']` (or `c['p_q1']`). -/
def q1 (q : ι × Two C D E → ℝ) : T3 ι C D := fun i c d => q (i, .inl (c, d))
/-- `s['q2']` (or `c['p_q2']`). -/
def q2 (q : ι × Two C D E → ℝ) : T3 ι C E := fun i c e => q (i, .inr (c, e))

/-- A dictionary with the two tensors. -/
def join (x : T3 ι C D) (y : T3 ι C E) : ι × Two C D E → ℝ
  | (i, .inl (c, d)) => x i c d
  | (i, .inr (c, e)) => y i c e

/-- The only tensor `q1` of the simple model. -/
def one (q : ι × (C × D) → ℝ) : T3 ι C D := fun i c d => q (i, (c, d))

def single (x : T3 ι C D) : ι × (C × D) → ℝ := fun k => x k.1 k.2.1 k.2.2

/-! ## `AutoShootingIntegrandModelUpDown` (`shooting_models.py:198-407`) -/

abbrev UpDownPar (D E : Type) := Layer D E ⊕ Layer E D

/-- `rhs_advect_state`, lines 268-278. -/
def upDown (nl : ℝ → ℝ) : Rhs (ι × Two C D E) (UpDownPar D E) := fun θ q =>
  join (linear (fun r => θ (.inl r)) (map nl (q2 q))) (linear (fun r => θ (.inr r)) (q1 q))

/-- `optional_rhs_advect_costate_analytic`, lines 333-359. -/
def upDownCostate (dnl : ℝ → ℝ) (θ : UpDownPar D E → ℝ) (q p : ι × Two C D E → ℝ) : ι × Two C D E → ℝ :=
  let l1 := weightOf fun r => θ (.inl r)
  let l2 := weightOf fun r => θ (.inr r)
  join (fun i c d => - matmul (q2 p) l2 i c d)
    (fun i c e => - dnl (q2 q i c e) * matmul (q1 p) l1 i c e)

/-- `optional_compute_parameters_analytic`, lines 375-407, before the division by the weights. -/
noncomputable def upDownParams [Unique C] (nl : ℝ → ℝ) (q p : ι × Two C D E → ℝ) : UpDownPar D E → ℝ :=
  let q2i := transpose12 (q2 q)
  let p2i := transpose12 (q2 p)
  let l1 := t (mean0 (bmm (map nl q2i) (q1 p)))
  let l2 := mean0 (bmm p2i (q1 q))
  Sum.elim (layer l1 (mean0 (q1 p))) (layer l2 (t (mean0 p2i)))

/-! ## `AutoShootingIntegrandModelUpDownUniversal` (`shooting_models.py:410-644`) -/

abbrev UniversalPar (D E : Type) := Layer D E ⊕ Layer E D ⊕ E × E

/-- `rhs_advect_state`, lines 495-506. -/
def universal (nl : ℝ → ℝ) : Rhs (ι × Two C D E) (UniversalPar D E) := fun θ q =>
  join (linear (fun r => θ (.inl r)) (map nl (q2 q)))
    (linear (fun r => θ (.inr (.inl r))) (q1 q) + linearNB (fun r => θ (.inr (.inr r))) (map nl (q2 q)))

/-- `optional_rhs_advect_costate_analytic`, lines 546-587. -/
def universalCostate (dnl : ℝ → ℝ) (θ : UniversalPar D E → ℝ) (q p : ι × Two C D E → ℝ) : ι × Two C D E → ℝ :=
  let l1 := weightOf fun r => θ (.inl r)
  let l2 := weightOf fun r => θ (.inr (.inl r))
  let l3 := weightNB fun r => θ (.inr (.inr r))
  join (fun i c d => - matmul (q2 p) l2 i c d)
    (fun i c e => - dnl (q2 q i c e) * (matmul (q1 p) l1 i c e + matmul (q2 p) l3 i c e))

/-- `optional_compute_parameters_analytic`, lines 590-644. -/
noncomputable def universalParams [Unique C] (nl : ℝ → ℝ) (q p : ι × Two C D E → ℝ) : UniversalPar D E → ℝ :=
  let q2i := transpose12 (q2 q)
  let p2i := transpose12 (q2 p)
  let l1 := t (mean0 (bmm (map nl q2i) (q1 p)))
  let l2 := mean0 (bmm p2i (q1 q))
  let l3 := t (mean0 (bmm (map nl q2i) (transpose12 p2i)))
  Sum.elim (layer l1 (mean0 (q1 p))) (Sum.elim (layer l2 (t (mean0 p2i))) (layerNB l3))

/-! ## `AutoShootingIntegrandModelGeneralUpDown` (`shooting_models.py:647-923`) -/

abbrev GeneralPar (D E : Type) :=
  (Layer D E ⊕ D × D ⊕ D × D ⊕ D × E) ⊕ (Layer E D ⊕ E × E ⊕ E × E ⊕ E × D)

section General
variable (θ : GeneralPar D E → ℝ)
def l11 : Layer D E → ℝ := fun r => θ (.inl (.inl r))
def l12 : D × D → ℝ := fun r => θ (.inl (.inr (.inl r)))
def l13 : D × D → ℝ := fun r => θ (.inl (.inr (.inr (.inl r))))
def l14 : D × E → ℝ := fun r => θ (.inl (.inr (.inr (.inr r))))
def l21 : Layer E D → ℝ := fun r => θ (.inr (.inl r))
def l22 : E × E → ℝ := fun r => θ (.inr (.inr (.inl r)))
def l23 : E × E → ℝ := fun r => θ (.inr (.inr (.inr (.inl r))))
def l24 : E × D → ℝ := fun r => θ (.inr (.inr (.inr (.inr r))))
end General

/-- `rhs_advect_state`, lines 732-742; `damp` is `self.dampening_factor`, which the constructor sets to 0 (line 664). -/
def general (nl : ℝ → ℝ) (damp : ℝ) : Rhs (ι × Two C D E) (GeneralPar D E) := fun θ q =>
  join (linear (l11 θ) (map nl (q2 q)) + linearNB (l12 θ) (q1 q) + linearNB (l13 θ) (map nl (q1 q)) + linearNB (l14 θ) (q2 q))
    (linear (l21 θ) (q1 q) + linearNB (l22 θ) (q2 q) + linearNB (l23 θ) (map nl (q2 q)) + linearNB (l24 θ) (map nl (q1 q))
      - fun i c e => damp * q2 q i c e)

/-- `optional_rhs_advect_costate_analytic`, lines 782-833. -/
def generalCostate (dnl : ℝ → ℝ) (θ : GeneralPar D E → ℝ) (q p : ι × Two C D E → ℝ) : ι × Two C D E → ℝ :=
  let p1 := q1 p
  let p2 := q2 p
  join (fun i c d => - matmul p2 (weightOf (l21 θ)) i c d - matmul p1 (weightNB (l12 θ)) i c d
      + - dnl (q1 q i c d) * (matmul p1 (weightNB (l13 θ)) i c d + matmul p2 (weightNB (l24 θ)) i c d))
    (fun i c e => - dnl (q2 q i c e) * (matmul p1 (weightOf (l11 θ)) i c e + matmul p2 (weightNB (l23 θ)) i c e)
      + (- matmul p1 (weightNB (l14 θ)) i c e - matmul p2 (weightNB (l22 θ)) i c e))

/-- `optional_compute_parameters_analytic`, lines 836-923. -/
noncomputable def generalParams [Unique C] (nl : ℝ → ℝ) (q p : ι × Two C D E → ℝ) : GeneralPar D E → ℝ :=
  let q1i := transpose12 (q1 q)
  let q2i := transpose12 (q2 q)
  let p2i := transpose12 (q2 p)
  Sum.elim
    (Sum.elim (layer (t (mean0 (bmm (map nl q2i) (q1 p)))) (mean0 (q1 p)))
      (Sum.elim (layerNB (t (mean0 (bmm q1i (q1 p)))))
        (Sum.elim (layerNB (t (mean0 (bmm (map nl q1i) (q1 p))))) (layerNB (t (mean0 (bmm q2i (q1 p))))))))
    (Sum.elim (layer (mean0 (bmm p2i (q1 q))) (mean0 (transpose12 p2i)))
      (Sum.elim (layerNB (mean0 (bmm p2i (q2 q))))
        (Sum.elim (layerNB (t (mean0 (bmm (map nl q2i) (q2 p))))) (layerNB (mean0 (bmm p2i (map nl (q1 q))))))))

/-! ## `AutoShootingIntegrandModelUpdownPeriodic` (`shooting_models.py:1839-2066`) -/

abbrev PeriodicPar (D E : Type) := Layer D E ⊕ Layer E D ⊕ D × D

/-- `rhs_advect_state`, lines 1915-1926. -/
def periodic (nl : ℝ → ℝ) : Rhs (ι × Two C D E) (PeriodicPar D E) := fun θ q =>
  join (linear (fun r => θ (.inl r)) (map nl (q2 q)) + linearNB (fun r => θ (.inr (.inr r))) (q1 q))
    (linear (fun r => θ (.inr (.inl r))) (q1 q))

/-- `optional_rhs_advect_costate_analytic`, lines 1967-2012. -/
def periodicCostate (dnl : ℝ → ℝ) (θ : PeriodicPar D E → ℝ) (q p : ι × Two C D E → ℝ) : ι × Two C D E → ℝ :=
  let l1 := weightOf fun r => θ (.inl r)
  let l2 := weightOf fun r => θ (.inr (.inl r))
  let l3 := weightNB fun r => θ (.inr (.inr r))
  join (fun i c d => - matmul (q2 p) l2 i c d + - matmul (q1 p) l3 i c d)
    (fun i c e => - dnl (q2 q i c e) * matmul (q1 p) l1 i c e)

/-- `optional_compute_parameters_analytic`, lines 2015-2066. -/
noncomputable def periodicParams [Unique C] (nl : ℝ → ℝ) (q p : ι × Two C D E → ℝ) : PeriodicPar D E → ℝ :=
  let q2i := transpose12 (q2 q)
  let p2i := transpose12 (q2 p)
  let l1 := t (mean0 (bmm (map nl q2i) (q1 p)))
  let l2 := mean0 (bmm p2i (q1 q))
  let l3 := t (mean0 (bmm (transpose12 (q1 q)) (q1 p)))
  Sum.elim (layer l1 (mean0 (q1 p))) (Sum.elim (layer l2 (t (mean0 p2i))) (layerNB l3))

/-! ## `AutoShootingIntegrandModelUpdownDampenedQ2` (`shooting_models.py:1480-1647`) -/

/-- `rhs_advect_state`, lines 1528-1538; the constructor sets `damp` to -0.5 (line 1497).  The analytic costate equation
(lines 1558-1599) and parameters (1602-1647) are literally those of the UpDown model. -/
def dampenedQ2 (nl : ℝ → ℝ) (damp : ℝ) : Rhs (ι × Two C D E) (UpDownPar D E) := fun θ q =>
  join (linear (fun r => θ (.inl r)) (map nl (q2 q)))
    (linear (fun r => θ (.inr r)) (q1 q) - fun i c e => damp * q2 q i c e)

/-! ## `AutoShootingIntegrandModelSecondOrder` (`shooting_models.py:130-195`)

Lines 173-183 are those of UpDown with both sizes equal; there is no analytic solution. -/

/-- `rhs_advect_state`, lines 173-183. -/
def secondOrder (nl : ℝ → ℝ) : Rhs (ι × Two C D D) (UpDownPar D D) := upDown nl

/-! ## `AutoShootingIntegrandModelSimple` (`shooting_models.py:1126-1265`) -/

/-- `rhs_advect_state`, lines 1168-1177. -/
def simple (nl : ℝ → ℝ) : Rhs (ι × (C × D)) (Layer D D) := fun θ q => single (linear θ (map nl (one q)))

/-- `optional_rhs_advect_costate_analytic`, lines 1179-1215: a loop over the particles. -/
def simpleCostate (dnl : ℝ → ℝ) (θ : Layer D D → ℝ) (q p : ι × (C × D) → ℝ) : ι × (C × D) → ℝ :=
  single fun i c d => - dnl (one q i c d) * matmul (one p) (weightOf θ) i c d

/-- `(pi[i].t() * nl(qi[i])).t()` of line 1243 for one row: `[d,1] * [1,d]` is broadcast to the outer product. -/
def outerRow [Unique C] (p q : C → D → ℝ) : D → D → ℝ := t fun a b => p default a * q default b

/-- `optional_compute_parameters_analytic`, lines 1218-1254, particle dimension 1. -/
noncomputable def simpleParams [Unique C] (nl : ℝ → ℝ) (q p : ι × (C × D) → ℝ) : Layer D D → ℝ :=
  let At : D → D → ℝ := fun a b => 1 / Fintype.card ι * ∑ i, outerRow (one p i) (map nl (one q) i) a b
  let bt : C → D → ℝ := fun c d => 1 / Fintype.card ι * ∑ i, one p i c d
  layer (t At) bt

/-- The same product of line 1243 when the particle dimension equals the number of features: the shapes agree and the product
is elementwise (any other particle dimension is a shape error). -/
def elementwise (p q : D → D → ℝ) : D → D → ℝ := t fun a b => p b a * q a b

/-- `optional_compute_parameters_analytic` for particle dimension equal to the number of features; only the weight. -/
noncomputable def simpleWeightSquare (nl : ℝ → ℝ) (q p : ι × (D × D) → ℝ) : D → D → ℝ :=
  t fun a b => 1 / Fintype.card ι * ∑ i, elementwise (one p i) (map nl (one q) i) a b

/-! ## `DEBUGAutoShootingIntegrandModelSimple` (`shooting_models.py:926-1123`) -/

/-- `rhs_advect_state`, lines 977-987. -/
def debugSimple (nl : ℝ → ℝ) : Rhs (ι × Two C D D) (Layer D D ⊕ Layer D D) := fun θ q =>
  join (linear (fun r => θ (.inl r)) (map nl (q1 q))) (linear (fun r => θ (.inr r)) (map nl (q2 q)))

/-- `optional_rhs_advect_costate_analytic`, lines 989-1049. -/
def debugSimpleCostate (dnl : ℝ → ℝ) (θ : Layer D D ⊕ Layer D D → ℝ) (q p : ι × Two C D D → ℝ) : ι × Two C D D → ℝ :=
  join (fun i c d => - dnl (q1 q i c d) * matmul (q1 p) (weightOf fun r => θ (.inl r)) i c d)
    (fun i c d => - dnl (q2 q i c d) * matmul (q2 p) (weightOf fun r => θ (.inr r)) i c d)

/-- `optional_compute_parameters_analytic`, lines 1052-1110, particle dimension 1. -/
noncomputable def debugSimpleParams [Unique C] (nl : ℝ → ℝ) (q p : ι × Two C D D → ℝ) : Layer D D ⊕ Layer D D → ℝ :=
  Sum.elim (simpleParams nl (single (q1 q)) (single (q1 p))) (simpleParams nl (single (q2 q)) (single (q2 p)))

/-! ## `AutoShootingIntegrandModelUpdownSymmetrized` (`shooting_models.py:1650-1836`) -/

/-- Coordinates of one particle for `q1`, `q2`, `q3`. -/
abbrev Three (C D E : Type) := C × D ⊕ C × E ⊕ C × D

def s1 (q : ι × Three C D E → ℝ) : T3 ι C D := fun i c d => q (i, .inl (c, d))
def s2 (q : ι × Three C D E → ℝ) : T3 ι C E := fun i c e => q (i, .inr (.inl (c, e)))
def s3 (q : ι × Three C D E → ℝ) : T3 ι C D := fun i c d => q (i, .inr (.inr (c, d)))

def join3 (x : T3 ι C D) (y : T3 ι C E) (z : T3 ι C D) : ι × Three C D E → ℝ
  | (i, .inl (c, d)) => x i c d
  | (i, .inr (.inl (c, e))) => y i c e
  | (i, .inr (.inr (c, d))) => z i c d

abbrev SymmetrizedPar (D E : Type) := Layer D E ⊕ Layer E D ⊕ Layer D D

/-- `rhs_advect_state`, lines 1702-1712.  In the code `l3` has as many outputs as `q2` (line 1695) but its result is the
derivative of `q3`, which is as large as `q1` (line 1683); that only fits for inflation factor 1.  Modelled with the output size `D` that fits. -/
def symmetrized (nl : ℝ → ℝ) : Rhs (ι × Three C D E) (SymmetrizedPar D E) := fun θ q =>
  join3 (linear (fun r => θ (.inl r)) (map nl (s2 q))) (linear (fun r => θ (.inr (.inl r))) (map nl (s3 q)))
    (linear (fun r => θ (.inr (.inr r))) (s1 q))

/-- `optional_rhs_advect_costate_analytic`, lines 1732-1779. -/
def symmetrizedCostate (dnl : ℝ → ℝ) (θ : SymmetrizedPar D E → ℝ) (q p : ι × Three C D E → ℝ) : ι × Three C D E → ℝ :=
  let l1 := weightOf fun r => θ (.inl r)
  let l2 := weightOf fun r => θ (.inr (.inl r))
  let l3 := weightOf fun r => θ (.inr (.inr r))
  join3 (fun i c d => - matmul (s3 p) l3 i c d) (fun i c e => - dnl (s2 q i c e) * matmul (s1 p) l1 i c e)
    (fun i c d => - dnl (s3 q i c d) * matmul (s2 p) l2 i c d)

/-- `optional_compute_parameters_analytic`, lines 1782-1836, before the division. -/
noncomputable def symmetrizedParams [Unique C] (nl : ℝ → ℝ) (q p : ι × Three C D E → ℝ) : SymmetrizedPar D E → ℝ :=
  let q2i := transpose12 (s2 q)
  let p2i := transpose12 (s2 p)
  Sum.elim (layer (t (mean0 (bmm (map nl q2i) (s1 p)))) (mean0 (s1 p)))
    (Sum.elim (layer (mean0 (bmm p2i (map nl (s3 q)))) (t (mean0 p2i)))
      (layer (t (mean0 (bmm (transpose12 (s1 q)) (s3 p)))) (mean0 (s3 p))))

/-- The weights by which lines 1822-1834 divide: the weight matrix of `l3` is divided by the weight of `l1` (line 1834
reads `weight_dict`, not `weight_dict3`). `w1 w2 w3` are the weights of the weight matrices, `b1 b2 b3` those of the biases. -/
def symmetrizedDivisors (w1 b1 w2 b2 _w3 b3 : Option ℝ) : SymmetrizedPar D E → Option ℝ
  | .inl (_, some _) => w1
  | .inl (_, none) => b1
  | .inr (.inl (_, some _)) => w2
  | .inr (.inl (_, none)) => b2
  | .inr (.inr (_, some _)) => w1
  | .inr (.inr (_, none)) => b3

/-- The weights of the three layers. -/
def symmetrizedWeights (w1 b1 w2 b2 w3 b3 : Option ℝ) : SymmetrizedPar D E → Option ℝ
  | .inl (_, some _) => w1
  | .inl (_, none) => b1
  | .inr (.inl (_, some _)) => w2
  | .inr (.inl (_, none)) => b2
  | .inr (.inr (_, some _)) => w3
  | .inr (.inr (_, none)) => b3

/-! ## `AutoShootingIntegrandModelDampenedUpDown` (`shooting_models.py:13-127`) -/

/-- Coordinates of one particle for `q1`, `q2`, `c1`, `c2`; the latter two have shape
`[particles, 1, 1]`. -/
abbrev Four (C D E : Type) := Two C D E ⊕ (Unit ⊕ Unit)

def d1 (q : ι × Four C D E → ℝ) : T3 ι C D := fun i c d => q (i, .inl (.inl (c, d)))
def d2 (q : ι × Four C D E → ℝ) : T3 ι C E := fun i c e => q (i, .inl (.inr (c, e)))
def c1 (q : ι × Four C D E → ℝ) : ι → ℝ := fun i => q (i, .inr (.inl ()))
def c2 (q : ι × Four C D E → ℝ) : ι → ℝ := fun i => q (i, .inr (.inr ()))

/-- `rhs_advect_state`, lines 75-105: dampening by the learned (constant in time) `c1`, `c2`; `l2` is
applied to `nl(q1)`. -/
def dampenedUpDown (nl : ℝ → ℝ) : Rhs (ι × Four C D E) (UpDownPar D E) := fun θ q k =>
  match k with
  | (i, .inl (.inl (c, d))) => linear (fun r => θ (.inl r)) (map nl (d2 q)) i c d - nl (c1 q i) * d1 q i c d
  | (i, .inl (.inr (c, e))) => linear (fun r => θ (.inr r)) (map nl (d1 q)) i c e - nl (c2 q i) * d2 q i c e
  | (_, .inr _) => 0

end Verif.Models
