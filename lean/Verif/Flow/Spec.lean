import Verif.Assembly.Spec

/-!
# Integration methods, and integrating dictionaries directly

An integration method (`torchdiffeq`, `generic_integrator.py`) sees vectors.  It can combine vectors it knows element by element, evaluate
the right-hand side at such a combination, and decide how to go on by a number that is a sum over all elements (an error norm).  This covers
explicit and implicit Runge-Kutta and multistep methods, with fixed or adaptive step sizes.
-/

namespace Verif.Flow
open Verif Verif.Assembly

/-- State, costate and data. -/
abbrev Trip (α : Type) := TDicts α × TDicts α × TDicts α

/-- An integration method with its settings and the requested times, as a program over a growing list of known vectors (first the initial
vector, then the results of the evaluations). -/
inductive Method (α T : Type) where
  /-- return one vector per requested time, each an element by element combination of the known ones -/
  | done (outs : List (List α → α))
  /-- give up -/
  | fail (e : Err)
  /-- evaluate the right-hand side at time `t` and a combination of the known vectors -/
  | eval (t : T) (arg : List α → α) (next : Method α T)
  /-- sum a combination over all elements and go on depending on the sum -/
  | test (q : List α → α) (next : α → Method α T)

variable {α T σ : Type}

/-- Element `j` of the tensor with name `k` in block `b`. -/
def entry [Zero α] (d : TDicts α) (b k : String) (j : Nat) : α :=
  (((SDict.get? d b).bind fun x => SDict.get? x k).bind fun t => t.data[j]?).getD 0

/-- Combining dictionaries with the same names and shapes element by element. -/
def pointwise [Zero α] (g : List α → α) (p : Plans) (ds : List (TDicts α)) : TDicts α :=
  p.map fun b => (b.1, b.2.map fun k => (k.1, ⟨k.2, (List.range (vol k.2)).map fun j => g (ds.map fun d => entry d b.1 k.1 j)⟩))

/-- The same for state, costate and data. -/
def pointwise3 [Zero α] (g : List α → α) (p : AllPlans) (xs : List (Trip α)) : Trip α :=
  (pointwise g p.state (xs.map fun x => x.1), pointwise g p.costate (xs.map fun x => x.2.1), pointwise g p.data (xs.map fun x => x.2.2))

/-- The sum of all elements. -/
def total [Add α] [Zero α] (x : Trip α) : α := (elements x.1).sum + (elements x.2.1).sum + (elements x.2.2).sum

/-- The names of derivatives: the derivative of `k` is called `dot_k` (`rhs['dot_q1']` etc. in all classes, `prefix='dot_p_'` in `shooting_integrands.py:852-854`). -/
def dotted (d : TDicts α) : TDicts α := d.map fun b => (b.1, b.2.map fun e => ("dot_" ++ e.1, e.2))

/-- The names without `dot_`. -/
def undotted (d : TDicts α) : TDicts α := d.map fun b => (b.1, b.2.map fun e => (String.ofList (e.1.toList.drop 4), e.2))

def dotted3 (x : Trip α) : Trip α := (dotted x.1, dotted x.2.1, dotted x.2.2)
def undotted3 (x : Trip α) : Trip α := (undotted x.1, undotted x.2.1, undotted x.2.2)

/-- A method applied to dictionaries: no vectors, no plans for taking them apart.  `F` is the right-hand side on dictionaries: it returns the
derivative of `k` under the name `dot_k`, may have a memory of type `σ` and may raise. -/
def runDict [Add α] [Zero α] (p : AllPlans) (F : T → Trip α → σ → Py (Trip α × σ)) : Method α T → List (Trip α) → σ → Py (List (Trip α) × σ)
  | .done outs, xs, s => .ok (outs.map fun g => pointwise3 g p xs, s)
  | .fail e, _, _ => .error e
  | .eval t g next, xs, s =>
    match F t (pointwise3 g p xs) s with
    | .error e => .error e
    | .ok (y, s') => runDict p F next (xs ++ [undotted3 y]) s'
  | .test q next, xs, s => runDict p F (next (total (pointwise3 q p xs))) xs s

/-- All elements of the tensor with name `k` in block `b`. -/
def tensorData (d : TDicts α) (b k : String) : List α := (((SDict.get? d b).bind fun x => SDict.get? x k).map fun t => t.data).getD []

/-- Dictionaries at several times, stacked: every tensor gets a leading dimension, one row per time. -/
def stack (p : Plans) (ds : List (TDicts α)) : TDicts α :=
  p.map fun b => (b.1, b.2.map fun k => (k.1, ⟨ds.length :: k.2, ds.flatMap fun d => tensorData d b.1 k.1⟩))

/-- The same for state, costate and data. -/
def stack3 (p : AllPlans) (xs : List (Trip α)) : Trip α :=
  (stack p.state (xs.map fun x => x.1), stack p.costate (xs.map fun x => x.2.1), stack p.data (xs.map fun x => x.2.2))

/-- Names and shapes of all tensors. -/
def layoutOf (x : Trip α) : AllPlans := ⟨shapesOf x.1, shapesOf x.2.1, shapesOf x.2.2⟩

/-- Blocks without entries removed. -/
def full (x : Trip α) : Trip α := (dropEmptyBlocks x.1, dropEmptyBlocks x.2.1, dropEmptyBlocks x.2.2)

/-- State, costate and data have the names and shapes of a plan; every tensor has at least one dimension. -/
def HasLayout (p : AllPlans) (x : Trip α) : Prop :=
  (GoodDicts x.1 ∧ shapesOf x.1 = p.state) ∧ (GoodDicts x.2.1 ∧ shapesOf x.2.1 = p.costate) ∧ (GoodDicts x.2.2 ∧ shapesOf x.2.2 = p.data)

/-- A plan as it comes from an assembled vector: well formed, no section and no block is empty. -/
def FullPlans (p : AllPlans) : Prop :=
  GoodAllPlans p ∧ (p.state ≠ [] ∧ p.costate ≠ [] ∧ p.data ≠ []) ∧
    ∀ b ∈ p.state ++ p.costate ++ p.data, b.2 ≠ []

/-- The right-hand side returns derivatives with the corresponding names and the same shapes (or raises). -/
def KeepsLayout (p : AllPlans) (F : T → Trip α → σ → Py (Trip α × σ)) : Prop :=
  ∀ t x s y s', HasLayout p x → F t x s = .ok (y, s') → ∃ d, y = dotted3 d ∧ HasLayout p d

/-! ## Example of a method: explicit Euler steps between the requested times -/

/-- `n` vectors are known; `cur` is the current value, `outs` are the values so far and `t` is the current time. -/
def eulerGo [Zero α] [Add α] [Sub α] [Mul α] (n : Nat) (cur : List α → α) (outs : List (List α → α)) (t : α) : List α → Method α α
  | [] => .done outs
  | t' :: ts => .eval t cur (eulerGo (n + 1) (fun rs => cur rs + (t' - t) * rs.getD n 0) (outs ++ [fun rs => cur rs + (t' - t) * rs.getD n 0]) t' ts)

/-- Explicit Euler steps. -/
def euler [Zero α] [Add α] [Sub α] [Mul α] : List α → Method α α
  | [] => .done []
  | t :: ts => eulerGo 1 (fun rs => rs.getD 0 0) [fun rs => rs.getD 0 0] t ts

/-- Explicit Euler steps in words: the next value is the value plus the time difference times the derivative. -/
def eulerSteps [Zero α] [Add α] [Sub α] [Mul α] (p : AllPlans) (F : α → Trip α → σ → Py (Trip α × σ)) : α → List α → Trip α → σ → Py (List (Trip α) × σ)
  | _, [], x, s => .ok ([x], s)
  | t, t' :: ts, x, s =>
    match F t x s with
    | .error e => .error e
    | .ok (d, s') =>
      match eulerSteps p F t' ts (pointwise3 (fun l => l.getD 0 0 + (t' - t) * l.getD 1 0) p [x, undotted3 d]) s' with
      | .error e => .error e
      | .ok (ys, s'') => .ok (x :: ys, s'')

end Verif.Flow
