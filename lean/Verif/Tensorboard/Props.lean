import Verif.Tensorboard.Model

/-!
# C98: what is logged for tensorboard
-/

namespace Verif.Tensorboard
open Verif

variable {W : Type}

/-- The epoch a call is told (0 if it is told none). -/
def Epoch (c : Call W) (n : Int) : Prop := ∃ d, c.custom = some d ∧ ((PDict.get? d "epoch" = some n) ∨ (PDict.get? d "epoch" = none ∧ n = 0))

/-- The first layer has this weight and a bias with these numbers. -/
def FirstLayer (c : Call W) (w : W) (b : List ℝ) : Prop := PDict.get? c.params "l1" = some ⟨some w, some (.vector b)⟩

/-- What should be logged of a call. -/
inductive Logged : Call W → List (Entry W) → Prop
  | due {c : Call W} {n : Int} {w : W} {b0 b1 : ℝ} {bs : List ℝ} (ht : c.t = 0) (he : Epoch c n) (h10 : 10 ∣ n) (hf : FirstLayer c w (b0 :: b1 :: bs)) :
      Logged c [.scalar "bias0" b0 n, .scalar "bias1" b1 n, .image "weight" w n]
  | notDue {c : Call W} {n : Int} (he : Epoch c n) (h : c.t ≠ 0 ∨ ¬ 10 ∣ n) : Logged c []

theorem epoch_eq {c : Call W} {n : Int} (h : Epoch c n) : ∃ d, c.custom = some d ∧ (PDict.get? d "epoch").getD 0 = n := by
  obtain ⟨d, hd, hg | ⟨hg, rfl⟩⟩ := h
  · exact ⟨d, hd, by rw [hg]; rfl⟩
  · exact ⟨d, hd, by rw [hg]; rfl⟩

theorem epoch_of {c : Call W} {d : PDict String Int} (h : c.custom = some d) : Epoch c ((PDict.get? d "epoch").getD 0) := by
  refine ⟨d, h, ?_⟩
  cases PDict.get? d "epoch" with
  | none => exact .inr ⟨rfl, rfl⟩
  | some n => exact .inl rfl

/-- C98: a call logs what it should. -/
theorem C98_call (c : Call W) (es : List (Entry W)) (h : Logged c es) : hook c = (es, .ok ()) := by
  cases h with
  | due ht he h10 hf =>
    obtain ⟨d, hd, rfl⟩ := epoch_eq he
    unfold hook
    rw [hd]
    dsimp only
    rw [if_pos ht, if_pos (Int.emod_eq_zero_of_dvd h10)]
    unfold first
    rw [show PDict.get? c.params "l1" = _ from hf]
    rfl
  | notDue he h =>
    obtain ⟨d, hd, rfl⟩ := epoch_eq he
    unfold hook
    rw [hd]
    dsimp only
    by_cases ht : c.t = 0
    · rw [if_pos ht, if_neg (fun hh => (h.resolve_left (fun h' => h' ht)) (Int.dvd_of_emod_eq_zero hh))]
    · rw [if_neg ht]

/-- C98: over a whole training with such calls, the log is what should be logged of each call, in order: three entries for every call at time 0 in an epoch divisible by 10, with the epoch as step,
and nothing else.

The claim for all trainings, without the condition on the shape of the bias (at least two numbers in one row), is false: `C98_analytic_fails`, `C98_one_feature_fails`. -/
theorem C98_training_partial (cs : List (Call W)) (ess : List (List (Entry W))) (h : List.Forall₂ Logged cs ess) : training cs = (ess.flatten, .ok ()) := by
  induction h with
  | nil => rfl
  | cons h1 _ ih =>
    unfold training
    rw [C98_call _ _ h1, ih]
    rfl

/-- Two epochs: in epoch 10 one call at time 0 and one later, in epoch 11 nothing is due. -/
example : training [(⟨0, [("l1", ⟨some true, some (.vector [3, 4, 5])⟩)], some [("epoch", 10)]⟩ : Call Bool), ⟨1, [("l1", ⟨some true, some (.vector [3, 4, 5])⟩)], some [("epoch", 10)]⟩,
      ⟨0, [("l1", ⟨some false, some (.vector [7, 8])⟩)], some [("epoch", 11)]⟩] =
    ([.scalar "bias0" 3 10, .scalar "bias1" 4 10, .image "weight" true 10], .ok ()) :=
  C98_training_partial _ [[.scalar "bias0" 3 10, .scalar "bias1" 4 10, .image "weight" true 10], [], []]
    (.cons (.due rfl ⟨_, rfl, .inl rfl⟩ (by decide) rfl) (.cons (.notDue (n := 10) ⟨_, rfl, .inl rfl⟩ (.inl one_ne_zero)) (.cons (.notDue (n := 11) ⟨_, rfl, .inl rfl⟩ (.inr (by decide))) .nil)))

/-- C98: without custom data every call raises `TypeError`, at any time: a block with this hook and no data cannot be evaluated. -/
theorem C98_no_data (c : Call W) (h : c.custom = none) : hook c = ([], .error .typeError) := by
  unfold hook
  rw [h]

/-- C98: with hand-written formulas the bias has one row (`shooting_models.py:400, 1252`): every call that is due raises, whatever the number of features; if there is one feature, a part
has been logged before. -/
theorem C98_analytic_fails (c : Call W) (n : Int) (he : Epoch c n) (ht : c.t = 0) (h10 : 10 ∣ n) (w : W) (xs : List ℝ)
    (hf : PDict.get? c.params "l1" = some ⟨some w, some (.rows [xs])⟩) :
    hook c = if h : xs.length = 1 then ([.scalar "bias0" xs[0] n], .error .indexError) else ([], .error .valueError) := by
  obtain ⟨d, hd, rfl⟩ := epoch_eq he
  unfold hook
  rw [hd]
  dsimp only
  rw [if_pos ht, if_pos (Int.emod_eq_zero_of_dvd h10)]
  unfold first
  rw [hf]
  match xs with
  | [] => rfl
  | [x] => rfl
  | x :: y :: l => 
    rw [dif_neg (by simp)]
    rfl

/-- Two features: nothing is logged; one feature: the first number is. -/
example : hook (⟨0, [("l1", ⟨some true, some (.rows [[3, 4]])⟩)], some [("epoch", 20)]⟩ : Call Bool) = ([], .error .valueError) ∧
    hook (⟨0, [("l1", ⟨some true, some (.rows [[3]])⟩)], some []⟩ : Call Bool) = ([.scalar "bias0" 3 0], .error .indexError) :=
  ⟨C98_analytic_fails _ 20 ⟨_, rfl, .inl rfl⟩ rfl (by decide) true [3, 4] rfl, C98_analytic_fails _ 0 ⟨_, rfl, .inr ⟨rfl, rfl⟩⟩ rfl (by decide) true [3] rfl⟩

/-- C98: so does one feature with automatic differentiation. -/
theorem C98_one_feature_fails (c : Call W) (n : Int) (he : Epoch c n) (ht : c.t = 0) (h10 : 10 ∣ n) (w : W) (x : ℝ) (hf : FirstLayer c w [x]) :
    hook c = ([.scalar "bias0" x n], .error .indexError) := by
  obtain ⟨d, hd, rfl⟩ := epoch_eq he
  unfold hook
  rw [hd]
  dsimp only
  rw [if_pos ht, if_pos (Int.emod_eq_zero_of_dvd h10)]
  unfold first
  rw [show PDict.get? c.params "l1" = _ from hf]
  rfl

/-- C98: a call that is due needs the first layer with weight and bias. -/
theorem C98_first_layer (c : Call W) (n : Int) (he : Epoch c n) (ht : c.t = 0) (h10 : 10 ∣ n) :
    hook c = ([], .error .keyError) ↔ ∀ l, PDict.get? c.params "l1" = some l → l.weight = none ∨ l.bias = none := by
  obtain ⟨d, hd, rfl⟩ := epoch_eq he
  unfold hook
  rw [hd]
  dsimp only
  rw [if_pos ht, if_pos (Int.emod_eq_zero_of_dvd h10)]
  unfold first
  cases PDict.get? c.params "l1" with
  | none => simp
  | some l =>
    obtain ⟨w, b⟩ := l
    cases w with
    | none => simp
    | some w =>
      cases b with
      | none => simp
      | some b =>
        simp only [Option.some.injEq, forall_eq', reduceCtorEq, or_self, iff_false]
        unfold write
        intro hh
        cases b with
        | vector xs =>
          match xs with
          | [] => cases hh
          | [x] => cases hh
          | x :: y :: l => cases hh
        | rows xs =>
          match xs with
          | [] => cases hh
          | [] :: _ => cases hh
          | (x :: y :: l) :: _ => cases hh
          | [[x]] => cases hh
          | [x] :: [] :: _ => cases hh
          | [x] :: [y] :: _ => cases hh
          | [x] :: (y :: z :: l) :: _ => cases hh

/-- A class without the layer `l1`. -/
example : hook (⟨0, [("conv", ⟨some true, none⟩)], some [("epoch", 0)]⟩ : Call Bool) = ([], .error .keyError) :=
  (C98_first_layer _ 0 ⟨_, rfl, .inl rfl⟩ rfl (by decide)).2 (by intro l hl; cases hl)

/-- C98: the calls before the first exception are logged, the later ones are not. -/
theorem C98_stops (cs : List (Call W)) (ess : List (List (Entry W))) (h : List.Forall₂ Logged cs ess) (c : Call W) (es : List (Entry W)) (e : Err) (hc : hook c = (es, .error e))
    (later : List (Call W)) : training (cs ++ c :: later) = (ess.flatten ++ es, .error e) := by
  induction h with
  | nil =>
    show training (c :: later) = _
    unfold training
    rw [hc]
    rfl
  | cons h1 _ ih =>
    rw [List.cons_append]
    unfold training
    rw [C98_call _ _ h1, ih, List.flatten_cons, List.append_assoc]

end Verif.Tensorboard
