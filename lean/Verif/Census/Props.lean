import Verif.Census.Distinct

/-!
# C92: the parameters of the residual network
-/

namespace Verif.Census
open Verif Block ResNet Tensor

variable {α T Θ R β : Type}

/-! ## The network -/

/-- Whether there was a pass. -/
def Event.isPass : Event α Θ R → Bool
  | .pass _ _ => true
  | .train _ _ => false

section Network
variable [Zero α] [OfNat T 0] [OfNat T 1] {model : BlockSpec → Py (Cfg α T Θ R × St α T Θ)} {keys : List String} {n : Nat}

omit [OfNat T 1] in
theorem good_after {a : Nat} {blocks : List Nat} {l : Layer} {ls : List Layer} {st : Tensor α → Py (Tensor α)} (hk : Names keys) (events : List (Event α Θ R))
    (he : ∀ r x, Event.pass r x ∈ events → Accepts st l.channels x) (passed : Bool) (net : Net α T Θ R β) (h : Good keys n a blocks l ls st passed net) :
    Good keys n a blocks l ls st (passed || events.any Event.isPass) (events.foldl happen net) := by
  induction events generalizing passed net with
  | nil => simpa using h
  | cons e events ih =>
    rw [List.foldl_cons, List.any_cons]
    have he' : ∀ r x, Event.pass r x ∈ events → Accepts st l.channels x := fun r x hm => he r x (List.mem_cons_of_mem _ hm)
    cases e with
    | pass r x =>
      have := ih he' true _ (h.pass hk r x (he r x (by simp)))
      simpa [Event.isPass, happen] using this
    | train f g =>
      have := ih he' passed _ (h.train f g)
      simpa [Event.isPass, happen] using this

/-- C92: after any history of passes (of batches and images of any sizes) and optimiser steps with at least one pass, `named_parameters` of a network lists
exactly the expected names with the expected numbers of values, in the expected order; before the first pass, the same without the margins.  The network has
layers `l :: ls` with the given channels and particle sizes, any positive numbers of blocks per layer, and a convolutional shooting class; channels do not
decrease, and particles thinned by the stride fit into those of the next layer. -/
theorem C92_parameters (hc : ConvClass model keys n) (hk : Names keys) (a : Nat) (ha : 0 < a) (blocks : List Nat) (hpos : ∀ m ∈ blocks, 0 < m) (l : Layer) (ls : List Layer)
    (hmono : ((l :: ls).map Layer.channels).IsChain (· ≤ ·))
    (hshrink : (l :: ls).IsChain fun p q => p.height / a ≤ q.height ∧ p.width / a ≤ q.width)
    (st : Tensor α → Py (Tensor α)) (hd : Result α → Py β) (net : Net α T Θ R β)
    (h : ResNet.construct model st hd ((l :: ls).map Layer.channels) blocks ((l :: ls).map fun x => [x.height, x.width]) (some (a : Int)) = .ok net)
    (events : List (Event α Θ R)) (he : ∀ r x, Event.pass r x ∈ events → Accepts st l.channels x) (image classes : Nat) :
    named image l.channels ((l :: ls).getLast (by simp)).channels classes (events.foldl happen net) =
      (if events.any Event.isPass then expected keys n a image classes l ls else expectedNew keys n image classes l ls).map fun p => (p.1, some p.2) := by
  have h1 := good_after hk events he false net (Good.start hc hk a ha blocks hpos l ls hmono hshrink st hd net h)
  rw [Bool.false_or] at h1
  exact h1.named hk image classes

/-- C92: no two parameters have the same name. -/
theorem C92_distinct (hk : Names keys) (a image classes : Nat) (l : Layer) (ls : List Layer) :
    ((expected keys n a image classes l ls).map Prod.fst).Nodup := expected_names hk n a image classes l ls

end Network

/-! ## The comparison in the script -/

theorem countOne_eq (target : PDict String Nat) (c : Counts) (p : String × Nat) :
    countOne target c p = if PDict.get? target p.1 = some p.2 then ⟨c.total + p.2, c.passed + 1, c.failed⟩ else ⟨c.total + p.2, c.passed, c.failed + 1⟩ := by
  unfold countOne
  cases PDict.get? target p.1 with
  | none => simp
  | some m => simp

theorem compare_from (target : PDict String Nat) (l : List (String × Nat)) (c : Counts) :
    l.foldl (countOne target) c = ⟨c.total + (l.map Prod.snd).sum, c.passed + l.countP (fun p => PDict.get? target p.1 = some p.2),
      c.failed + l.countP (fun p => ¬PDict.get? target p.1 = some p.2)⟩ := by
  induction l generalizing c with
  | nil => rfl
  | cons p l ih =>
    rw [List.foldl_cons, ih, countOne_eq]
    by_cases hp : PDict.get? target p.1 = some p.2
    · rw [if_pos hp]
      simp [hp, Nat.add_assoc, Nat.add_comm 1]
    · rw [if_neg hp]
      simp [hp, Nat.add_assoc, Nat.add_comm 1]

/-- C92: the script adds up the sizes of all parameters; every parameter passes or fails; none fails if and only if all of them are among the targets with
their sizes. -/
theorem C92_compare (target : PDict String Nat) (l : List (String × Nat)) :
    (compare target l).total = (l.map Prod.snd).sum ∧ (compare target l).passed + (compare target l).failed = l.length ∧
      ((compare target l).failed = 0 ↔ ∀ p ∈ l, PDict.get? target p.1 = some p.2) := by
  unfold compare
  rw [compare_from]
  refine ⟨by simp, ?_, ?_⟩
  · simp only [Nat.zero_add]
    have := List.length_eq_countP_add_countP (l := l) (p := fun p => decide (PDict.get? target p.1 = some p.2))
    rw [this]
    congr 1
    congr 1
    funext p
    simp
  · simp [List.countP_eq_zero]

/-- C92: with the expected numbers as targets nothing fails. -/
theorem C92_script {keys : List String} (hk : Names keys) (n a image classes : Nat) (l : Layer) (ls : List Layer) :
    compare (expected keys n a image classes l ls) (expected keys n a image classes l ls) =
      ⟨((expected keys n a image classes l ls).map Prod.snd).sum, (expected keys n a image classes l ls).length, 0⟩ := by
  have hn := expected_names hk n a image classes l ls
  have hget : ∀ p ∈ expected keys n a image classes l ls, PDict.get? (expected keys n a image classes l ls) p.1 = some p.2 :=
    fun p hp => PDict.get?_eq_some_of_mem hn hp
  obtain ⟨h1, h2, h3⟩ := C92_compare (expected keys n a image classes l ls) (expected keys n a image classes l ls)
  have h3 := h3.2 hget
  rw [h3] at h2
  generalize compare _ _ = c at h1 h2 h3
  cases c
  simp only [Nat.add_zero] at h1 h2 h3
  rw [h1, h2, h3]

/-- C92: parameters that are expected but do not exist are not noticed by the script. -/
theorem C92_missing_not_noticed (target : PDict String Nat) (l : List (String × Nat)) (k : String) (v : Nat) (hk : k ∉ l.map Prod.fst) :
    compare (PDict.set target k v) l = compare target l := by
  unfold compare
  rw [compare_from, compare_from]
  have : ∀ p ∈ l, PDict.get? (PDict.set target k v) p.1 = PDict.get? target p.1 := by
    intro p hp
    rw [PDict.get?_set, if_neg]
    intro hc
    exact hk (List.mem_map.2 ⟨p, hp, hc.symm⟩)
  congr 1
  · congr 1
    apply List.countP_congr
    intro p hp
    rw [this p hp]
  · congr 1
    apply List.countP_congr
    intro p hp
    rw [this p hp]

/-! ## The network of the script -/

def exKeys : List String := ["q1", "q2"]

theorem exNames : Names exKeys := ⟨by decide +kernel, by simp [exKeys], by decide +kernel, by decide +kernel⟩

def exConvCfg (name : String) : Cfg ℤ ℤ Unit Unit :=
  { demo name true with concatDim := 1, enlargementDims := some [2, 3], initialData := fun x => .ok [("q1", x), ("q2", { x with data := x.data.map fun _ => 0 })] }

def exConvArgs (n : Nat) (q : BlockSpec) : Args ℤ ℤ :=
  { demoArgs 1 with
    integrandNames := []
    state := if q.onlyPassThrough then none else
      some (exKeys.map fun k => (k, ⟨n :: q.particleDimension.toNat :: q.particleSize, List.replicate (vol (n :: q.particleDimension.toNat :: q.particleSize)) 1⟩)) }

def exConv (n : Nat) (q : BlockSpec) : Py (Cfg ℤ ℤ Unit Unit × St ℤ ℤ Unit) := (Block.construct (exConvCfg q.name) (exConvArgs n q) ()).map fun s => (exConvCfg q.name, s)

theorem exConv_ok {n : Nat} {q : BlockSpec} {b : Cfg ℤ ℤ Unit Unit × St ℤ ℤ Unit} (h : exConv n q = .ok b) :
    b.1 = exConvCfg q.name ∧ Block.construct (exConvCfg q.name) (exConvArgs n q) () = .ok b.2 := by
  unfold exConv at h
  cases hc : Block.construct (exConvCfg q.name) (exConvArgs n q) () with
  | error e => rw [hc] at h; cases h
  | ok s => rw [hc] at h; cases h; exact ⟨rfl, rfl⟩

theorem exConv_class (n : Nat) : ConvClass (exConv n) exKeys n where
  name := fun q b h => by rw [(exConv_ok h).1]; rfl
  concat := fun q b h => by rw [(exConv_ok h).1]; exact ⟨rfl, rfl⟩
  enlarge := fun q b h => by rw [(exConv_ok h).1]; exact ⟨rfl, rfl, rfl⟩
  out := fun q b h => by rw [(exConv_ok h).1]; simp [exConvCfg, demo, exKeys]
  initial := fun q b h x hx => by
    rw [(exConv_ok h).1]
    refine ⟨_, rfl, rfl, ?_⟩
    intro p hp
    simp only [List.mem_cons, List.not_mem_nil, or_false] at hp
    rcases hp with rfl | rfl
    · exact ⟨hx, rfl⟩
    · exact ⟨by unfold Tensor.WF at hx ⊢; simpa using hx, rfl⟩
  created := fun q b h r dk k m => by rw [(exConv_ok h).1]; simp [exConvCfg, demo]
  solve := fun q b h t th d p x0 => by rw [(exConv_ok h).1]; exact ⟨_, _, rfl, rfl, by simp⟩
  built := fun q b h => by
    obtain ⟨h1, h2⟩ := exConv_ok h
    rw [h1]
    refine ⟨_, _, h2, rfl, rfl, rfl, ?_, ?_, ?_⟩
    · intro t ht
      exact ⟨by unfold Tensor.WF at ht ⊢; simpa [exConvArgs, demoArgs] using ht, rfl⟩
    · intro hq
      simp [exConvArgs, hq]
    · intro hq
      refine ⟨_, by simp only [exConvArgs, hq]; rfl, rfl, ?_⟩
      intro p hp
      obtain ⟨k, _, rfl⟩ := List.mem_map.1 hp
      exact ⟨by simp [Tensor.WF], rfl⟩

/-- The network of the script: the table of expected numbers. -/
example : expected exKeys 2 2 1 2 ⟨2, 5, 5⟩ [⟨3, 3, 3⟩] =
    [("initial_conv.weight", 18), ("initial_conv.bias", 2), ("batch_norm.weight", 2), ("batch_norm.bias", 2),
     ("shooting_layer_0_0.q1", 100), ("shooting_layer_0_0.q2", 100), ("shooting_layer_0_0.p_q1", 100), ("shooting_layer_0_0.p_q2", 100),
     ("shooting_layer_1_0.q1", 18), ("shooting_layer_1_0.q2", 18), ("shooting_layer_1_0.p_q1", 18), ("shooting_layer_1_0.p_q2", 18),
     ("shooting_layer_1_0.pt_enlarge_q1", 20), ("shooting_layer_1_0.pt_enlarge_q2", 20), ("shooting_layer_1_0.pt_enlarge_p_q1", 20),
     ("shooting_layer_1_0.pt_enlarge_p_q2", 20), ("last_linear.weight", 6), ("last_linear.bias", 2)] := by decide +kernel

/-- ... and the network has these parameters after a pass, an optimiser step and another pass. -/
example (x : Tensor ℤ) (hx : x.WF) (hs : x.shape = [3, 2, 11, 11]) (f : String → Ref → List ℤ → List ℤ) :
    ∃ net, ResNet.construct (exConv 2) (fun x => .ok x) (fun y => .ok y) [2, 3] [2, 2] [[5, 5], [3, 3]] (some 2) = .ok net ∧
      named 1 2 3 2 ([Event.pass () x, .train f fun _ => id, .pass () x].foldl happen net) =
        (expected exKeys 2 2 1 2 ⟨2, 5, 5⟩ [⟨3, 3, 3⟩]).map fun p => (p.1, some p.2) := by
  have hc : ∃ net, ResNet.construct (exConv 2) (fun x => .ok x) (fun y => Except.ok (ε := Err) y) [2, 3] [2, 2] [[5, 5], [3, 3]] (some 2) = .ok net := ⟨_, rfl⟩
  obtain ⟨net, hnet⟩ := hc
  refine ⟨net, hnet, ?_⟩
  exact C92_parameters (exConv_class 2) exNames 2 (by decide) [2, 2] (by decide) ⟨2, 5, 5⟩ [⟨3, 3, 3⟩] (by simp) (by simp) _ _ net hnet
    [Event.pass () x, .train f fun _ => id, .pass () x] (by
      intro r y hy
      have : y = x := by simpa using hy
      subst this
      exact ⟨y, 3, 11, 11, rfl, hx, hs⟩) 1 2

/-- A network without the parameters of its second layer passes all tests of the script. -/
example : compare [("initial_conv.bias", 2), ("shooting_layer_1_0.q1", 18)] [("initial_conv.bias", 2)] = ⟨2, 1, 0⟩ := by decide +kernel

end Verif.Census
