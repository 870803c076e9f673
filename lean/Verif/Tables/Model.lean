import Verif.Base.Py
import Verif.Base.PDict
import Verif.Discrete.Model
import Verif.Figures.Model

/-!
# Parameters of a network, layer by layer

Models `collect_and_sort_parameter_values_across_layers` (`/repo/demos/neurips20/simple_functional_mapping_example.py:205-331`).  Texts are lists of characters.  Arrays are those of `Verif.Figures`.
A table is the list of its rows, one for each layer.  Titles, colours, colour bars and printed text are not modelled.
-/

namespace Verif.Tables
open Verif Verif.Figures

variable {R : Type}

abbrev Str := List Char

/-- `s.split('.')` -/
def splitDot : Str → List Str
  | [] => [[]]
  | c :: s => if c = '.' then [] :: splitDot s else (c :: (splitDot s).headD []) :: (splitDot s).tail

/-- `'.'.join(l)` -/
def joinDot : List Str → Str
  | [] => []
  | [a] => a
  | a :: b :: l => a ++ '.' :: joinDot (b :: l)

/-- `names[1]` -/
def layerOf (name : Str) : Py Str :=
  match (splitDot name)[1]? with
  | none => .error .indexError
  | some s => .ok s

/-- `'.'.join(names[2:])` -/
def inLayer (name : Str) : Str := joinDot ((splitDot name).drop 2)

/-- The first loop behind its first round (lines 220-234): names and sizes of the parameters that follow as long as they are in the first layer. -/
def firstBlock (first : Str) : List (Str × Arr R) → Py (List (Str × List ℕ))
  | [] => .ok []
  | p :: l =>
    match layerOf p.1 with
    | .error e => .error e
    | .ok s =>
      if first = s then
        match firstBlock first l with
        | .error e => .error e
        | .ok r => .ok ((inLayer p.1, p.2.shape) :: r)
      else .ok []

/-- `torch.zeros([nr_of_layers] + list(ps))`, row by row -/
def zeros [Zero R] (n : ℕ) (s : List ℕ) : List (Arr R) := List.replicate n ⟨s, fun _ => 0⟩

/-- Whether a tensor of shape `s` can be written into one of shape `r`: from the right the dimensions agree or are one; further dimensions of `s` on the left are of size one. -/
def broadcasts (s r : List ℕ) : Bool := go s.reverse r.reverse
where
  go : List ℕ → List ℕ → Bool
    | [], _ => true
    | a :: s, [] => a = 1 && go s []
    | a :: s, b :: r => (a = b || a = 1) && go s r

/-- The place that is read when a tensor of shape `s` is written into one of shape `r`. -/
def readAt (s r js : List ℕ) : List ℕ := List.replicate (s.length - r.length) 0 ++ List.zipWith (fun a j => if a = 1 then 0 else j) (s.drop (s.length - r.length)) (js.drop (r.length - s.length))

/-- `layer_pars[name][layer_nr,...] = value` -/
def setRow (rows : List (Arr R)) (k : ℕ) (v : Arr R) : Py (List (Arr R)) :=
  match rows[k]? with
  | none => .error .indexError
  | some old =>
    if broadcasts v.shape old.shape then .ok (rows.set k (if v.shape = old.shape then v else ⟨old.shape, fun js => v.elem (readAt v.shape old.shape js)⟩))
    else .error .runtimeError

/-- The second loop (lines 249-259). -/
def fill (cur : Str) (k : ℕ) (d : PDict Str (List (Arr R))) : List (Str × Arr R) → Py (PDict Str (List (Arr R)))
  | [] => .ok d
  | p :: l =>
    match layerOf p.1 with
    | .error e => .error e
    | .ok s =>
      let k' := if cur ≠ s then k + 1 else k
      match d.get? (inLayer p.1) with
      | none => .error .keyError
      | some rows =>
        match setRow rows k' p.2 with
        | .error e => .error e
        | .ok rows' => fill s k' (d.set (inLayer p.1) rows') l

/-- The tables (lines 212-259) for the list of named parameters. -/
def collect [Zero R] (pars : List (Str × Arr R)) : Py (PDict Str (List (Arr R))) :=
  match pars with
  | [] => .error .zeroDivision
  | p :: _ =>
    match layerOf p.1 with
    | .error e => .error e
    | .ok first =>
      match firstBlock first pars with
      | .error e => .error e
      | .ok ns => fill first 0 (ns.foldl (fun d e => d.set e.1 (zeros (pars.length / ns.length) e.2)) []) pars

/-- `A.sort()` for an array of rank two or one: the entries of the last dimension in ascending order. -/
def sortLast [LinearOrder R] [Inhabited R] (a : Arr R) : Arr R :=
  match a.shape with
  | [m, n] => ⟨[m, n], fun js => (((List.range n).map fun j => a.elem [js.headD 0, j]).mergeSort (· ≤ ·))[js.tail.headD 0]?.getD default⟩
  | [n] => ⟨[n], fun js => (((List.range n).map fun j => a.elem [j]).mergeSort (· ≤ ·))[js.headD 0]?.getD default⟩
  | _ => a

/-- `.transpose()` for arrays of rank two (others are not drawn). -/
def transpose (a : Arr R) : Arr R :=
  match a.shape with
  | [m, n] => ⟨[n, m], fun js => a.elem [js.tail.headD 0, js.headD 0]⟩
  | _ => a

/-- `imshow`: only arrays with two dimensions are accepted (colour images, arrays with three dimensions, do not occur here); the picture is the list of its columns. -/
def imshow (a : Arr R) : Py (List (List R)) :=
  match a.shape with
  | [m, n] => .ok ((List.range n).map fun j => (List.range m).map fun i => a.elem [i, j])
  | _ => .error .typeError

/-- The pictures of one network: weights and biases of its two layers, as far as there are any. -/
structure Pictures (R : Type) where
  l1w : Option (List (List R))
  l1b : Option (List (List R))
  l2w : Option (List (List R))
  l2b : Option (List (List R))
deriving DecidableEq, Repr

/-- One picture: nothing if there is no such table. -/
def picture [Inhabited R] (d : PDict Str (List (Arr R))) (name : Str) (prepare : Arr R → Arr R) : Py (Option (List (List R))) :=
  match d.get? name with
  | none => .ok none
  | some rows =>
    match imshow (transpose (prepare (stack rows))) with
    | .error e => .error e
    | .ok p => .ok (some p)

/-- `collect_and_sort_parameter_values_across_layers(model)` (lines 205-331) -/
def pictures [Zero R] [Inhabited R] [LinearOrder R] (pars : List (Str × Arr R)) : Py (Pictures R) := do
  let d ← collect pars
  let a ← picture d "l1.weight".toList (fun x => sortLast (squeeze x))
  let b ← picture d "l1.bias".toList id
  let c ← picture d "l2.weight".toList (fun x => sortLast (squeeze x))
  let e ← picture d "l2.bias".toList squeeze
  .ok ⟨a, b, c, e⟩

/-- `model.named_parameters()` of `DoubleResNetUpDown` (`simple_discrete_neural_networks.py:57-68`, blocks: lines 39-55): the attribute `model` is a sequence of blocks `l0`, `l1`, ... with the parameters `l1.weight`, `l1.bias` and
`l2.weight` (`l2` has no bias).  `w1`, `b1` and `w2` give the values in each block. -/
def doubleParameters (n k : ℕ) (w1 b1 w2 : ℕ → ℕ → R) : List (Str × Arr R) :=
  (List.range n).flatMap fun i =>
    [("model.l".toList ++ (Block.showNat i).toList ++ ".l1.weight".toList, ⟨[1, k], fun js => w1 i (js.tail.headD 0)⟩),
     ("model.l".toList ++ (Block.showNat i).toList ++ ".l1.bias".toList, ⟨[1], fun js => b1 i (js.headD 0)⟩),
     ("model.l".toList ++ (Block.showNat i).toList ++ ".l2.weight".toList, ⟨[k, 1], fun js => w2 i (js.headD 0)⟩)]

end Verif.Tables
