import Verif.Sessions.Model

/-!
# What a recording should contain
-/

namespace Verif.Sessions
open Verif Verif.Integrand

variable {T X Par Dot N R H D : Type}

/-- The times and inputs at which a pass evaluates. -/
def evaluations : List (PassOp T X R Par) → List (T × X)
  | [] => []
  | .eval t x _ :: l => (t, x) :: evaluations l
  | _ :: l => evaluations l

/-- What a hook should be told about an evaluation. -/
def told (d : Option D) (e : T × X × Out Par Dot) : Args T X Par Dot D :=
  ⟨e.1, e.2.1, e.2.2.dotState, e.2.2.dotCostate, e.2.2.dotData, e.2.2.params, d⟩

/-- The pass made by an action. -/
def Action.ops : Action T X R Par H D → List (PassOp T X R Par)
  | .record _ _ l => l
  | .pass l => l
  | .otherId => []

/-- The hook of an action that records. -/
def Action.hook : Action T X R Par H D → List H
  | .record h _ _ => [h]
  | _ => []

/-- The dictionary of an action that records. -/
def Action.data : Action T X R Par H D → Option D
  | .record _ d _ => some d
  | _ => none

/-- An action ended with an exception. -/
def Failed (p : Action T X R Par H D × Outcome T X Par Dot H D) : Prop := ∃ e, p.2.result = .error e

instance (p : Action T X R Par H D × Outcome T X Par Dot H D) : Decidable (Failed p) :=
  match h : p.2.result with
  | .error e => .isTrue ⟨e, h⟩
  | .ok _ => .isFalse (by rintro ⟨e, he⟩; rw [h] at he; cases he)

/-- The hooks of the recordings that ended with an exception. -/
def leftBehind (l : List (Action T X R Par H D × Outcome T X Par Dot H D)) : List H :=
  l.flatMap fun p => if Failed p then p.1.hook else []

/-- The dictionary used last. -/
def lastData (l : List (Action T X R Par H D × Outcome T X Par Dot H D)) : Option D :=
  l.foldl (fun d p => p.1.data.or d) none

/-- Everything that was written to a dictionary. -/
def writtenTo [DecidableEq D] (d : D) (l : List (Action T X R Par H D × Outcome T X Par Dot H D)) : List (H × Args T X Par Dot D) :=
  (l.flatMap fun p => p.2.calls).filter fun c => c.2.custom = some d

end Verif.Sessions
