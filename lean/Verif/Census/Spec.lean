/-!
# Which parameters a residual network should have
-/

namespace Verif.Census

/-- The requested numbers for a layer: channels, and height and width of the particles. -/
structure Layer where
  channels : Nat
  height : Nat
  width : Nat
  deriving DecidableEq

/-- States and costates of a block. -/
def own (keys : List String) (block : String) (size : Nat) : List (String × Nat) :=
  (keys.map fun k => (block ++ "." ++ k, size)) ++ keys.map fun k => (block ++ "." ++ "p_" ++ k, size)

/-- The parameters with which states and costates that are passed through are enlarged. -/
def margin (keys : List String) (block : String) (size : Nat) : List (String × Nat) :=
  (keys.map fun k => (block ++ "." ++ "pt_enlarge_" ++ k, size)) ++ keys.map fun k => (block ++ "." ++ "pt_enlarge_" ++ "p_" ++ k, size)

/-- The first block of layer `i`. -/
def blockOf (i : Nat) : String := "shooting_layer" ++ "_" ++ toString i ++ "_" ++ "0"

/-- The layers from number `i` on, after a layer `p`: `n` particles with the additional channels; if the particles of the previous layer, thinned
by the stride `a`, do not have the size of the new ones, a margin for all `n` particles in all previous channels.  Only the first block of a layer
has parameters. -/
def later (keys : List String) (n a : Nat) : Nat → Layer → List Layer → List (String × Nat)
  | _, _, [] => []
  | i, p, l :: ls => own keys (blockOf i) (n * (l.channels - p.channels) * l.height * l.width) ++
      (if p.height / a = l.height ∧ p.width / a = l.width then []
        else margin keys (blockOf i) (n * p.channels * (l.height * l.width - p.height / a * (p.width / a)))) ++ later keys n a (i + 1) l ls

/-- ... before the first pass: the margins do not exist. -/
def laterNew (keys : List String) (n : Nat) : Nat → Layer → List Layer → List (String × Nat)
  | _, _, [] => []
  | i, p, l :: ls => own keys (blockOf i) (n * (l.channels - p.channels) * l.height * l.width) ++ laterNew keys n (i + 1) l ls

def stem (image : Nat) (l : Layer) : List (String × Nat) :=
  [("initial_conv.weight", l.channels * image * 9), ("initial_conv.bias", l.channels), ("batch_norm.weight", l.channels), ("batch_norm.bias", l.channels)]

def head (classes : Nat) (l : Layer) : List (String × Nat) := [("last_linear.weight", classes * l.channels), ("last_linear.bias", classes)]

/-- All parameters of a network with layers `l :: ls` that has been used. -/
def expected (keys : List String) (n a image classes : Nat) (l : Layer) (ls : List Layer) : List (String × Nat) :=
  stem image l ++ (own keys (blockOf 0) (n * l.channels * l.height * l.width) ++ later keys n a 1 l ls) ++ head classes ((l :: ls).getLast (by simp))

/-- All parameters of a new network. -/
def expectedNew (keys : List String) (n image classes : Nat) (l : Layer) (ls : List Layer) : List (String × Nat) :=
  stem image l ++ (own keys (blockOf 0) (n * l.channels * l.height * l.width) ++ laterNew keys n 1 l ls) ++ head classes ((l :: ls).getLast (by simp))

end Verif.Census
