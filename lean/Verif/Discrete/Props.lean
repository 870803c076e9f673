import Verif.Discrete.Model
import Verif.Evolution.Model
import Verif.ResNet.Lemmas
import Mathlib.Tactic.NormNum
import Mathlib.Tactic.FieldSimp

/-!
# C56: recurrent networks are Euler's method, deep networks compose
-/

namespace Verif.Discrete
open Verif Block

variable {β K L I M V : Type}

theorem loop_eq (f : V → V) (n : Nat) (x : V) : loop f n x = f^[n] x := by
  have key : ∀ (l : List Nat) (x : V), l.foldl (fun x _ => f x) x = f^[l.length] x := by
    intro l
    induction l with
    | nil => intro x; rfl
    | cons a l ih => intro x; exact ih (f x)
  unfold loop
  rw [key, List.length_range]

theorem euler_autonomous [AddCommGroup V] [Module ℝ V] (f : V → V) (h t : ℝ) (n : Nat) (y : V) :
    Evolution.euler (fun _ => f) h t n y = (fun z => z + h • f z)^[n] y := by
  induction n generalizing t y with
  | zero => rfl
  | succ n ih => exact ih (t + h) (y + h • f y)

/-- C56: the recurrent residual network with `n` layers makes `n` steps of Euler's method, of size `1/n`, from time 0, for its vector field. -/
theorem C56_rnn_euler [Fintype I] (p : Double I) (n : Nat) (x : β × Unit → ℝ) :
    resNetRNN p n x = Evolution.euler (fun _ y => p.l1.apply (relu (p.l2.apply y))) (1 / n) 0 n x := by
  rw [euler_autonomous]
  unfold resNetRNN
  rw [loop_eq]

/-- ... so it ends at time 1. -/
theorem C56_time_one (n : Nat) (hn : n ≠ 0) : (n : ℝ) * (1 / n) = 1 := by
  field_simp

/-- C56: the same for the recurrent convolutional network. -/
theorem C56_cnn_euler [AddCommGroup V] [Module ℝ V] (conv : V → V) (n : Nat) (x : V) :
    cnnRecNet conv n x = Evolution.euler (fun _ => conv) (1 / n) 0 n x := by
  rw [euler_autonomous]
  unfold cnnRecNet
  rw [loop_eq]

/-- C56: `n` modules are created under `n` different names, in order, one new module for each. -/
theorem C56_replicated (mk : Nat → M) (n : Nat) :
    replicateModules mk n = (List.range n).map (fun i => ("l" ++ showNat i, mk i)) ∧ (PDict.keys (replicateModules mk n)).Nodup ∧
      ∀ i < n, PDict.get? (replicateModules mk n) ("l" ++ showNat i) = some (mk i) := by
  have hinj : ∀ i j, "l" ++ showNat i = "l" ++ showNat j → i = j := by
    intro i j h
    have h' := congrArg String.toList h
    rw [String.toList_append, String.toList_append] at h'
    exact ResNet.showNat_injective (String.toList_inj.1 (List.append_cancel_left h'))
  have h1 : replicateModules mk n = (List.range n).map (fun i => ("l" ++ showNat i, mk i)) := by
    unfold replicateModules
    induction n with
    | zero => rfl
    | succ n ih =>
      rw [List.range_succ, List.foldl_append, ih, List.map_append]
      simp only [List.foldl_cons, List.foldl_nil, List.map_cons, List.map_nil]
      apply PDict.set_of_not_mem
      unfold PDict.keys
      rw [List.map_map, List.mem_map]
      rintro ⟨i, hi, he⟩
      have := hinj i n he
      rw [List.mem_range] at hi
      omega
  have h2 : (PDict.keys (replicateModules mk n)).Nodup := by
    rw [h1]
    unfold PDict.keys
    rw [List.map_map, List.Nodup, List.pairwise_map]
    exact List.nodup_range.imp (fun hne he => hne (hinj _ _ he))
  refine ⟨h1, h2, ?_⟩
  intro i hi
  apply PDict.get?_eq_some_of_mem h2
  rw [h1, List.mem_map]
  exact ⟨i, List.mem_range.2 hi, rfl⟩

theorem sequential_replicate (forward : M → V → V) (mk : Nat → M) (n : Nat) (x : V) :
    sequential forward (replicateModules mk n) x = (List.range n).foldl (fun x i => forward (mk i) x) x := by
  unfold sequential
  rw [(C56_replicated mk n).1, List.foldl_map]

/-- C56: a replicated network with `n + m` layers is the one with the first `n` layers followed by the one with the other `m` layers. -/
theorem C56_deeper (forward : M → V → V) (mk : Nat → M) (n m : Nat) (x : V) :
    sequential forward (replicateModules mk (n + m)) x =
      sequential forward (replicateModules (fun i => mk (n + i)) m) (sequential forward (replicateModules mk n) x) := by
  rw [sequential_replicate, sequential_replicate, sequential_replicate, List.range_add, List.foldl_append, List.foldl_map]

theorem C56_resnets [Fintype I] (n m : Nat) :
    (∀ (mk : Nat → Linear Unit Unit) (x : β × Unit → ℝ), resNet mk (n + m) x = resNet (fun i => mk (n + i)) m (resNet mk n x)) ∧
    (∀ (mk : Nat → Two I) (x : β × Unit → ℝ), resNetUpDown mk (n + m) x = resNetUpDown (fun i => mk (n + i)) m (resNetUpDown mk n x)) ∧
    (∀ (mk : Nat → Double I) (x : (β × Unit → ℝ) × (β × I → ℝ)),
      doubleResNetUpDown mk (n + m) x = doubleResNetUpDown (fun i => mk (n + i)) m (doubleResNetUpDown mk n x)) :=
  ⟨fun mk x => C56_deeper _ mk n m x, fun mk x => C56_deeper _ mk n m x, fun mk x => C56_deeper _ mk n m x⟩

/-- C56: a replicated network with the same parameters in every layer is the recurrent network. -/
theorem C56_tied (forward : M → V → V) (p : M) (n : Nat) (x : V) : sequential forward (replicateModules (fun _ => p) n) x = loop (forward p) n x :=
  sequential_replicate _ _ _ _

theorem C56_tied_nets [Fintype I] [AddCommGroup V] [Module ℝ V] (n : Nat) :
    (∀ (p : Double I) (x : (β × Unit → ℝ) × (β × I → ℝ)), doubleResNetUpDown (fun _ => p) n x = doubleRNN p n x) ∧
    (∀ (conv : V → V) (x : V), cnnResNet (fun _ => conv) n x = cnnRecNet conv n x) :=
  ⟨fun p x => C56_tied _ p n x, fun conv x => C56_tied _ conv n x⟩

/-- C56: the recurrent network without step size composes ... -/
theorem C56_double_rnn_deeper [Fintype I] (p : Double I) (n m : Nat) (x : (β × Unit → ℝ) × (β × I → ℝ)) :
    doubleRNN p (n + m) x = doubleRNN p m (doubleRNN p n x) := by
  unfold doubleRNN
  rw [loop_eq, loop_eq, loop_eq, Nat.add_comm, Function.iterate_add_apply]

/-- The identity as a linear layer. -/
def identity : Linear Unit Unit := ⟨fun _ _ => 1, none⟩

theorem identity_apply (x : β × Unit → ℝ) : identity.apply x = x := by
  funext i
  simp [identity, Linear.apply]

/-- C56: ... but the one with step size does not: the step depends on the number of layers.  Here one layer after one layer maps 1 to 4, two
layers map 1 to 9/4. -/
theorem C56_rnn_not_deeper : ∃ (p : Double Unit) (x : Unit × Unit → ℝ), resNetRNN p (1 + 1) x ≠ resNetRNN p 1 (resNetRNN p 1 x) := by
  refine ⟨⟨identity, identity⟩, fun _ => 1, ?_⟩
  intro h
  have := congrFun h ((), ())
  simp only [resNetRNN, loop_eq, identity_apply, relu, Function.iterate_succ, Function.iterate_zero, Function.comp_apply, id_eq, Pi.add_apply, Pi.smul_apply, smul_eq_mul] at this
  norm_num at this

/-- One step of the recurrent network with one hidden unit: `1 + 1 * relu(1) = 2`. -/
example : resNetRNN (⟨identity, identity⟩ : Double Unit) 1 (fun _ : Unit × Unit => 1) ((), ()) = 2 := by
  simp only [resNetRNN, loop_eq, identity_apply, relu, Function.iterate_succ, Function.iterate_zero, Function.comp_apply, id_eq, Pi.add_apply, Pi.smul_apply, smul_eq_mul]
  norm_num

/-- C56: the layers with one state, written out: the input plus a linear function of its positive part; the input plus a two-layer network applied to its positive part. -/
theorem C56_single_layers [Fintype I] (b : β) (x : β × Unit → ℝ) :
    (∀ l : Linear Unit Unit, simpleBlock l x (b, ()) = x (b, ()) + (l.weight () () * max 0 (x (b, ())) + (l.bias.getD 0) ())) ∧
      ∀ p : Two I, upDownBlock p x (b, ()) = x (b, ()) +
        ((∑ i, p.l2.weight () i * max 0 (p.l1.weight i () * max 0 (x (b, ())) + (p.l1.bias.getD 0) i)) + (p.l2.bias.getD 0) ()) := by
  constructor
  · intro l
    rcases l with ⟨w, _ | c⟩ <;> simp [simpleBlock, Linear.apply, relu]
  · intro p
    rcases p with ⟨⟨w, _ | c⟩, ⟨w', _ | c'⟩⟩ <;> simp [upDownBlock, Linear.apply, relu]

/-- C56: a network of such layers whose last linear maps are zero does not change its input, whatever its depth. -/
theorem C56_zero_identity [Fintype I] (n : Nat) (x : β × Unit → ℝ) :
    (∀ mk : Nat → Linear Unit Unit, (∀ i, mk i = ⟨fun _ _ => 0, none⟩) → resNet mk n x = x) ∧
      ∀ mk : Nat → Two I, (∀ i, (mk i).l2 = ⟨fun _ _ => 0, none⟩) → resNetUpDown mk n x = x := by
  have key : ∀ {M : Type} (f : M → (β × Unit → ℝ) → β × Unit → ℝ) (mk : Nat → M), (∀ i y, f (mk i) y = y) → sequential f (replicateModules mk n) x = x := by
    intro M f mk h
    rw [sequential_replicate]
    induction List.range n with
    | nil => rfl
    | cons i l ih => rw [List.foldl_cons, h, ih]
  constructor
  · intro mk h
    refine key _ _ fun i y => ?_
    funext ⟨b, _⟩
    rw [h, (C56_single_layers (I := I) b y).1]
    simp
  · intro mk h
    refine key _ _ fun i y => ?_
    funext ⟨b, _⟩
    rw [(C56_single_layers (I := I) b y).2, h]
    simp

/-- One layer with two hidden units: `1 + (1 * relu(2 * 1) + 1 * relu(-3 * 1 + 0)) = 3`. -/
example : upDownBlock (⟨⟨fun i _ => if i then 2 else -3, none⟩, ⟨fun _ _ => 1, none⟩⟩ : Two Bool) (fun _ : Unit × Unit => 1) ((), ()) = 3 := by
  rw [(C56_single_layers () _).2]
  simp
  norm_num

end Verif.Discrete
