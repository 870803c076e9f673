import Verif.Later.Network
import Verif.Enlarge.Spec
import Verif.Striding.Spec

/-!
# Residual networks as functions of coordinates

Between its blocks a residual network leaves out pixels, and it puts smaller particles in the middle of larger ones.  Here both are described for functions of coordinates.
-/

namespace Verif.Residual
open Verif Verif.Tensor Verif.Whole Verif.Evolution Verif.Flow Verif.Later

variable {K Kp : Type}

/-- The coordinates `Kp` lie in the middle of the coordinates `K`: the same names and channels, and every other dimension is enlarged by the same amount at both ends (up to one at the end). -/
structure Inside (Lp : Lay Kp) (L : Lay K) (ι : Kp → K) : Prop where
  parts : ∃ l : List (String × List Nat × List Nat), Lp.names = l.map (fun p => (p.1, p.2.1)) ∧ L.names = l.map (fun p => (p.1, p.2.2)) ∧
    ∀ p ∈ l, 1 ≤ p.2.1.length ∧ p.2.1[0]? = p.2.2[0]? ∧ Enlarge.Fits p.2.1 p.2.2 ∧
      ∀ idx, List.Forall₂ (· < ·) idx p.2.1 → L.coord p.1 (Enlarge.shifted p.2.1 p.2.2 idx) = (Lp.coord p.1 idx).map ι

open Classical in
/-- Rows with the values `x` at the coordinates in the middle and `f` elsewhere. -/
noncomputable def around {n : Nat} (ι : Kp → K) (x : Fin n × Kp → ℝ) (f : Fin n × K → ℝ) : Fin n × K → ℝ := fun k =>
  if h : ∃ a, ι a = k.2 then x (k.1, h.choose) else f k

/-- The coordinates `K` are some of the coordinates `Kp`: those that are left when the dimensions of a row are strided as `ps` says (pairs of stride and dimension; the channel is dimension 0). -/
structure Strided (Lp : Lay Kp) (L : Lay K) (σ : K → Kp) (ps : List (Nat × Nat)) : Prop where
  parts : ∃ l : List (String × List Nat × List Nat), Lp.names = l.map (fun p => (p.1, p.2.1)) ∧ L.names = l.map (fun p => (p.1, p.2.2)) ∧
    ∀ p ∈ l, (∀ q ∈ ps, q.2 < p.2.1.length) ∧ p.2.2 = Striding.targetShape ps p.2.1 ∧
      ∀ idx, List.Forall₂ (· < ·) idx p.2.2 → Lp.coord p.1 (Striding.sourceIndex ps p.2.1 idx) = (L.coord p.1 idx).map σ

/-- The values at the coordinates that are left. -/
def thin {n : Nat} (σ : K → Kp) (x : Fin n × Kp → ℝ) : Fin n × K → ℝ := fun k => x (k.1, σ k.2)

/-- What comes after the first block of a residual network.

* `block`: a block with an own state.  What is passed is put in the middle of larger particles (`ι`), with the values `f` and `g` around state and costate; then as for other later blocks (`Later.Stages`).
* `relay`: a block without own state integrates what is passed.
* `stride`: pixels are left out. -/
inductive Steps (n : Nat) : (Kp Kp' K K' : Type) → Type 1
  | nil {K K' : Type} : Steps n K K' K K'
  | block {Kp Kp' Kq Ko Ko' K K' Kn Kn' : Type} [Fintype K] [Fintype K'] (ι : Kp → Kq) (f g : Fin n × Kq → ℝ) (e : Kq ⊕ Ko ≃ K) (e' : Kp' ⊕ Ko' ≃ K') (q p : Fin n × Ko → ℝ)
      (fld : ∀ B, Sys2 (Fin n) (Fin B) K K' → ℝ → Sys2 (Fin n) (Fin B) K K' → Sys2 (Fin n) (Fin B) K K') (M : Method ℝ ℝ) (rest : Steps n K K' Kn Kn') : Steps n Kp Kp' Kn Kn'
  | relay {K K' Kn Kn' : Type} [Fintype K] [Fintype K']
      (fld : ∀ B, Sys2 (Fin n) (Fin B) K K' → ℝ → Sys2 (Fin n) (Fin B) K K' → Sys2 (Fin n) (Fin B) K K') (M : Method ℝ ℝ) (rest : Steps n K K' Kn Kn') : Steps n K K' Kn Kn'
  | stride {Kp Kp' K K' Kn Kn' : Type} (σ : K → Kp) (σ' : K' → Kp') (rest : Steps n K K' Kn Kn') : Steps n Kp Kp' Kn Kn'

/-- Where a block with own state starts. -/
noncomputable def begin {n B : Nat} {Kp Kp' Kq Ko Ko' K K' : Type} (ι : Kp → Kq) (f g : Fin n × Kq → ℝ) (e : Kq ⊕ Ko ≃ K) (e' : Kp' ⊕ Ko' ≃ K') (q p : Fin n × Ko → ℝ)
    (y : Sys2 (Fin n) (Fin B) Kp Kp') : Sys2 (Fin n) (Fin B) K K' := start e e' (around ι y.1 f, around ι y.2.1 g, y.2.2) q p

/-- The values at the end. -/
noncomputable def Steps.run {n B : Nat} {Kp Kp' K K' : Type} : Steps n Kp Kp' K K' → Sys2 (Fin n) (Fin B) Kp Kp' → Py (Sys2 (Fin n) (Fin B) K K')
  | .nil, y => .ok y
  | @Steps.block _ _ _ _ _ _ _ _ _ _ _ _ ι f g e e' q p fld M rest, y =>
    match last (runSys (fld B (begin ι f g e e' q p y)) M [begin ι f g e e' q p y]) with
    | .error err => .error err
    | .ok y => rest.run y
  | @Steps.relay _ _ _ _ _ _ _ fld M rest, y =>
    match last (runSys (fld B y) M [y]) with
    | .error err => .error err
    | .ok y => rest.run y
  | .stride σ σ' rest, y => rest.run (thin σ y.1, thin σ y.2.1, thin σ' y.2.2)

end Verif.Residual
