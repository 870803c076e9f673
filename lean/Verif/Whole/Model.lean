import Verif.Concat.Model
import Verif.Evolution.Model
import Verif.Flow.Model

/-!
# The model classes on dictionaries of tensors

`Verif.Models` describes the classes by functions of coordinates, `Verif.Flow` and `Verif.Block` work with dictionaries of tensors and leave the
class abstract.  Here both are joined: reading the tensors `q1`, `q2`, ... of a dictionary, applying the formulas and writing the derivatives
under the names `dot_q1`, ... (`shooting_models.py`, `rhs_advect_state` etc. of all classes; `shooting_integrands.py:503-622, 834-856`).
-/

namespace Verif.Whole
open Verif

/-! ## Tensors from functions -/

section
variable {α : Type}

/-- The row-major list of the values of a function of the index. -/
def tabData : List Nat → (List Nat → α) → List α
  | [], f => [f []]
  | n :: s, f => (List.range n).flatMap fun i => tabData s fun idx => f (i :: idx)

/-- The tensor of shape `s` whose element at an index is the value of `f`. -/
def tab (s : List Nat) (f : List Nat → α) : Tensor α := ⟨s, tabData s f⟩

end

/-! ## Where the coordinates of a row are stored -/

/-- The coordinates `K` of one row (a particle, a sample) in named tensors: names with the shape of one row, and for every coordinate its name and
its index; `coord` is the way back. -/
structure Lay (K : Type) where
  names : SDict String (List Nat)
  key : K → String
  idx : K → List Nat
  coord : String → List Nat → Option K

variable {K K' P R : Type}

/-- Row and coordinate of an index of a tensor. -/
noncomputable def value (L : Lay K) (n : Nat) (x : Fin n × K → ℝ) (name : String) : List Nat → ℝ
  | [] => 0
  | i :: idx => if h : i < n then ((L.coord name idx).map fun k => x (⟨i, h⟩, k)).getD 0 else 0

/-- The dictionary with `n` rows; `pre` is put in front of the names (`"p_"`, `"dot_"`, `"dot_p_"`). -/
noncomputable def enc (L : Lay K) (pre : String) (n : Nat) (x : Fin n × K → ℝ) : Concat.TDict ℝ :=
  L.names.map fun e => (pre ++ e.1, tab (n :: e.2) (value L n x e.1))

/-- The rows of a dictionary. -/
noncomputable def dec (L : Lay K) (pre : String) (n : Nat) (d : Concat.TDict ℝ) : Fin n × K → ℝ := fun k =>
  ((SDict.get? d (pre ++ L.key k.2)).bind fun t => t.get? (k.1.1 :: L.idx k.2)).getD 0

/-- Whether all tensors have `n` rows of the right shape. -/
def hasRows (L : Lay K) (pre : String) (n : Nat) (d : Concat.TDict ℝ) : Bool :=
  L.names.all fun e => ((SDict.get? d (pre ++ e.1)).map fun t => t.shape) == some (n :: e.2)

/-- The number of rows of the first tensor. -/
def rowCount (L : Lay K) (pre : String) (d : Concat.TDict ℝ) : Nat :=
  (((L.names.head?.bind fun e => SDict.get? d (pre ++ e.1)).bind fun t => t.shape.head?)).getD 0

/-- Reading `n` rows: a missing name is a `KeyError`; sizes that do not fit are a `RuntimeError` (torch would broadcast some of them;
`Verif.Shapes` has the rules). -/
noncomputable def readRows (L : Lay K) (pre : String) (n : Nat) (d : Concat.TDict ℝ) : Py (Fin n × K → ℝ) :=
  if L.names.any fun e => (SDict.get? d (pre ++ e.1)).isNone then .error .keyError
  else if hasRows L pre n d then .ok (dec L pre n d)
  else .error .runtimeError

/-! ## A class -/

/-- A model class with its way of computing parameters and costate derivative.  `R` are the random numbers of new parameter objects. -/
structure Cls (K K' P R : Type) where
  lay : Lay K
  /-- `rhs_advect_state`, for particles -/
  rhs : Evolution.Class K P
  /-- where the coordinates of a sample are stored: images can be larger than the particles (`res_net.py:20, 103-122`) -/
  dataLay : Lay K'
  /-- `rhs_advect_state`, for data: the same formula with the same parameters, for the coordinates of a sample -/
  dataRhs : Evolution.Class K' P
  /-- `compute_parameters`, `optional_compute_parameters_analytic` -/
  par : ∀ n, R → (Fin n × K → ℝ) → (Fin n × K → ℝ) → P → ℝ
  /-- the derivative of the costate, for parameters that were computed from random numbers -/
  cost : ∀ n, (P → ℝ) → R → (Fin n × K → ℝ) → (Fin n × K → ℝ) → Fin n × K → ℝ
  /-- `compute_kinetic_energy` -/
  kin : (P → ℝ) → ℝ

/-- Parameter objects: values, and the random numbers from which they started. -/
abbrev Par (P R : Type) := (P → ℝ) × R

/-- `rhs_advect_state_dict_of_dicts`, lines 503-513: without concatenation the class looks for its names among the names of the blocks. -/
noncomputable def advect (L : Lay K) (f : Evolution.Class K P) (concatenate : Bool) (dim : Nat) (θ : Par P R) (x : Concat.TDicts ℝ) : Py (Concat.TDicts ℝ) :=
  if concatenate then do
    let d ← Concat.concatDicts x dim
    let n := rowCount L "" d
    let q ← readRows L "" n d
    Concat.splitDicts (enc L "dot_" n (f (Fin n) θ.1 q)) x dim
  else .error .keyError

/-- The rows of state and costate, concatenated: lines 299-301, 517-519. -/
noncomputable def readBoth (c : Cls K K' P R) (dim : Nat) (x : Flow.Trip ℝ) : Py (Σ n, (Fin n × K → ℝ) × (Fin n × K → ℝ)) := do
  let d ← Concat.concatDicts x.1 dim
  let e ← Concat.concatDicts x.2.1 dim
  let n := rowCount c.lay "" d
  let q ← readRows c.lay "" n d
  let p ← readRows c.lay "p_" n e
  .ok ⟨n, q, p⟩

/-- The rule of a class for the integrand.  Lines 514-526 and 834-856 for the costate: derivatives with respect to the blocks of the state are the parts
of the derivatives with respect to the concatenated state.  Both kinds of blocks are split with the sizes of the costate. -/
noncomputable def rule (c : Cls K K' P R) (concatenate : Bool) (dim dataDim : Nat) : Integrand.Rule (Flow.Trip ℝ) (Par P R) (Concat.TDicts ℝ) ℝ R where
  nState x := x.1.length
  nCostate x := x.2.1.length
  nData x := x.2.2.length
  compute r x := if concatenate then do
      let s ← readBoth c dim x
      .ok (c.par s.1 r s.2.1 s.2.2, r)
    else .error .keyError
  kinetic θ := c.kin θ.1
  stateRhs θ x := advect c.lay c.rhs concatenate dim θ x.1
  dataRhs θ x := advect c.dataLay c.dataRhs concatenate dataDim θ x.2.2
  costateRhs θ x := if concatenate then do
      let s ← readBoth c dim x
      Concat.splitDicts (enc c.lay "dot_p_" s.1 (c.cost s.1 θ.1 θ.2 s.2.1 s.2.2)) x.2.1 dim
    else .error .keyError

/-! ## The layouts of the classes for vectors -/

/-- Index `[a, b]` of a row of shape `[c, d]`. -/
def pair (c d : Nat) : List Nat → Option (Fin c × Fin d)
  | [a, b] => if h : a < c ∧ b < d then some (⟨a, h.1⟩, ⟨b, h.2⟩) else none
  | _ => none

/-- `q1` of shape `[n, c, d]`: the simple class (`shooting_models.py:1143-1152`). -/
def layOne (c d : Nat) : Lay (Fin c × Fin d) where
  names := [("q1", [c, d])]
  key _ := "q1"
  idx k := [k.1.1, k.2.1]
  coord s l := if s = "q1" then pair c d l else none

/-- `q1` of shape `[n, c, d]` and `q2` of shape `[n, c, e]`: lines 145-159, 239-254, 463-478, 688-703, 943-957, 1499-1514, 1884-1899. -/
def layTwo (c d e : Nat) : Lay (Models.Two (Fin c) (Fin d) (Fin e)) where
  names := [("q1", [c, d]), ("q2", [c, e])]
  key
    | .inl _ => "q1"
    | .inr _ => "q2"
  idx
    | .inl k => [k.1.1, k.2.1]
    | .inr k => [k.1.1, k.2.1]
  coord s l := if s = "q1" then (pair c d l).map .inl else if s = "q2" then (pair c e l).map .inr else none

/-- `q1`, `q2`, `q3`: lines 1669-1687. -/
def layThree (c d e : Nat) : Lay (Models.Three (Fin c) (Fin d) (Fin e)) where
  names := [("q1", [c, d]), ("q2", [c, e]), ("q3", [c, d])]
  key
    | .inl _ => "q1"
    | .inr (.inl _) => "q2"
    | .inr (.inr _) => "q3"
  idx
    | .inl k => [k.1.1, k.2.1]
    | .inr (.inl k) => [k.1.1, k.2.1]
    | .inr (.inr k) => [k.1.1, k.2.1]
  coord s l := if s = "q1" then (pair c d l).map .inl else if s = "q2" then (pair c e l).map fun k => .inr (.inl k)
    else if s = "q3" then (pair c d l).map fun k => .inr (.inr k) else none

/-- `c1`, `c2` of shape `[n, 1, 1]`, `q1` and `q2`: lines 33-58. -/
def layFour (c d e : Nat) : Lay (Models.Four (Fin c) (Fin d) (Fin e)) where
  names := [("c1", [1, 1]), ("c2", [1, 1]), ("q1", [c, d]), ("q2", [c, e])]
  key
    | .inl (.inl _) => "q1"
    | .inl (.inr _) => "q2"
    | .inr (.inl _) => "c1"
    | .inr (.inr _) => "c2"
  idx
    | .inl (.inl k) => [k.1.1, k.2.1]
    | .inl (.inr k) => [k.1.1, k.2.1]
    | .inr _ => [0, 0]
  coord s l := if s = "q1" then (pair c d l).map fun k => .inl (.inl k) else if s = "q2" then (pair c e l).map fun k => .inl (.inr k)
    else if s = "c1" then (pair 1 1 l).map fun _ => .inr (.inl ()) else if s = "c2" then (pair 1 1 l).map fun _ => .inr (.inr ()) else none

/-! ## The two ways of computing -/

/-- A class whose samples have other coordinates than its particles. -/
def Cls.withData {K₀ : Type} (c : Cls K K₀ P R) (L : Lay K') (g : Evolution.Class K' P) : Cls K K' P R where
  lay := c.lay
  rhs := c.rhs
  dataLay := L
  dataRhs := g
  par := c.par
  cost := c.cost
  kin := c.kin

/-- Automatic differentiation (`shooting_integrands.py:689-739, 834-856`) without RNN mode: `R` are the initial values of new parameters. -/
noncomputable def autodiffCls [Fintype K] [Fintype P] (L : Lay K) (f : Evolution.Class K P) (w : P → Option ℝ) : Cls K K P (P → ℝ) where
  lay := L
  rhs := f
  dataLay := L
  dataRhs := f
  par n r q p := Shooting.directParameters (f (Fin n)) w r q p
  cost n _ r q p := Shooting.costateRhs (f (Fin n)) w r q p
  kin := Shooting.kineticEnergy w

/-- Automatic differentiation in RNN mode: the derivative of the costate is taken with the stored parameters (lines 701-716, 362-375).  At the evaluation that
computes them they depend on the state; that this makes no difference is `C34_costate_gradient` with `C34_fixed_parameters`. -/
noncomputable def rnnCls [Fintype K] [Fintype P] (L : Lay K) (f : Evolution.Class K P) (w : P → Option ℝ) : Cls K K P (P → ℝ) where
  lay := L
  rhs := f
  dataLay := L
  dataRhs := f
  par n r q p := Shooting.directParameters (f (Fin n)) w r q p
  cost n θ _ q p := Shooting.costateRhsFixed (f (Fin n)) w θ q p
  kin := Shooting.kineticEnergy w

/-- The hand-written formulas (`shooting_integrands.py:624-687`). -/
noncomputable def analyticCls [Fintype P] (L : Lay K) (f : Evolution.Class K P) (par : ∀ n, (Fin n × K → ℝ) → (Fin n × K → ℝ) → P → ℝ)
    (cost : ∀ n, (P → ℝ) → (Fin n × K → ℝ) → (Fin n × K → ℝ) → Fin n × K → ℝ) (w : P → Option ℝ) : Cls K K P R where
  lay := L
  rhs := f
  dataLay := L
  dataRhs := f
  par n _ q p := Shooting.divideByWeight w (par n q p)
  cost n θ _ q p := cost n θ q p
  kin := Shooting.kineticEnergy w

end Verif.Whole
