import Verif.Annealed.Spec
import Verif.Block.Lemmas
import Mathlib.Tactic.FieldSimp
import Mathlib.Tactic.Linarith
import Mathlib.Tactic.NormNum

/-!
# C107: training with a cosine schedule
-/

namespace Verif.Annealed
open Verif

/-! ## The learning rates -/

theorem angle {n e : Nat} (hn : 0 < n) (he : e ≤ n) : 0 ≤ Real.pi * e / n ∧ Real.pi * e / n ≤ Real.pi := by
  have h1 : (0 : ℝ) < n := by exact_mod_cast hn
  have h2 : (e : ℝ) ≤ n := by exact_mod_cast he
  have := Real.pi_pos
  refine ⟨by positivity, ?_⟩
  rw [div_le_iff₀ h1]
  nlinarith

theorem angle_lt {n e e' : Nat} (hn : 0 < n) (he : e < e') : Real.pi * e / n < Real.pi * e' / n := by
  have h1 : (0 : ℝ) < n := by exact_mod_cast hn
  have h2 : (e : ℝ) < e' := by exact_mod_cast he
  have := Real.pi_pos
  exact div_lt_div_of_pos_right (by nlinarith) h1

theorem cos_gt {n e : Nat} (he : e < n) : -1 < Real.cos (Real.pi * e / n) := by
  have hn : 0 < n := by omega
  have h1 := angle hn he.le
  have h2 := angle_lt (n := n) hn he
  have h3 : Real.pi * n / n = Real.pi := by
    have : (n : ℝ) ≠ 0 := by exact_mod_cast hn.ne'
    field_simp
  rw [h3] at h2
  have := Real.cos_lt_cos_of_nonneg_of_le_pi h1.1 le_rfl h2
  rwa [Real.cos_pi] at this

theorem zero_rate (n : Nat) (r : ℝ) : cosineRate n r 0 = r := by
  unfold cosineRate
  rw [Nat.cast_zero, mul_zero, zero_div, Real.cos_zero]
  ring

theorem last_rate {n : Nat} (hn : 0 < n) (r : ℝ) : cosineRate n r n = 0 := by
  have : (n : ℝ) ≠ 0 := by exact_mod_cast hn.ne'
  unfold cosineRate
  rw [show Real.pi * n / n = Real.pi by field_simp, Real.cos_pi]
  ring

/-- C107: the learning rate starts with the given one, is positive in every epoch, decreases from epoch to epoch and is zero after the last one. -/
theorem C107_rate {n : Nat} {r : ℝ} (hr : 0 < r) :
    cosineRate n r 0 = r ∧ (∀ e, e < n → 0 < cosineRate n r e ∧ cosineRate n r e ≤ r) ∧ (∀ e e', e < e' → e' ≤ n → cosineRate n r e' < cosineRate n r e) ∧ (0 < n → cosineRate n r n = 0) := by
  refine ⟨zero_rate n r, fun e he => ?_, fun e e' h1 h2 => ?_, fun hn => ?_⟩
  · have h1 := cos_gt he
    have h2 := Real.cos_le_one (Real.pi * e / n)
    unfold cosineRate
    constructor
    · have : 0 < 1 + Real.cos (Real.pi * e / n) := by linarith
      positivity
    · nlinarith
  · have hn : 0 < n := by omega
    have := Real.cos_lt_cos_of_nonneg_of_le_pi (angle hn (by omega : e ≤ n)).1 (angle hn h2).2 (angle_lt hn h1)
    unfold cosineRate
    nlinarith
  · exact last_rate hn r

/-- C107: a run with fewer epochs is not the beginning of a run with more: from the second epoch on its learning rates are smaller. -/
theorem C107_shorter {n m e : Nat} (h : n < m) (he : 0 < e) (hen : e ≤ n) {r : ℝ} (hr : 0 < r) : cosineRate n r e < cosineRate m r e := by
  have hn : 0 < n := by omega
  have h1 : (0 : ℝ) < n := by exact_mod_cast hn
  have h2 : (n : ℝ) < m := by exact_mod_cast h
  have h3 : (0 : ℝ) < e := by exact_mod_cast he
  have hp := Real.pi_pos
  have := Real.cos_lt_cos_of_nonneg_of_le_pi (angle (by omega : 0 < m) (by omega : e ≤ m)).1 (angle hn hen).2 (div_lt_div_of_pos_left (by positivity) h1 h2)
  unfold cosineRate
  nlinarith

theorem nextRate_cosine {n e : Nat} (h : e < n) (r : ℝ) : nextRate n (e + 1) (r, cosineRate n r e) = cosineRate n r (e + 1) := by
  have h1 := cos_gt h
  unfold nextRate
  rw [if_neg (by
    have e1 : ((e + 1 : ℕ) : ℤ) - 1 - n = (e + n : ℤ) - 2 * n := by push_cast; ring
    rw [e1, Int.sub_emod_right, Int.emod_eq_of_lt (by omega) (by omega)]
    omega)]
  have h2 : ((e + 1 : ℕ) : ℝ) - 1 = e := by push_cast; ring
  have h3 : 1 + Real.cos (Real.pi * e / n) ≠ 0 := by linarith
  rw [h2]
  unfold cosineRate
  dsimp only
  field_simp

/-- The schedule in epoch `e` of `n`. -/
noncomputable def scheduleAt (n : Nat) (rates : List ℝ) (e : Nat) : Schedule := ⟨e, rates.map fun r => (r, cosineRate n r e)⟩

theorem step_scheduleAt {n e : Nat} (h : e < n) (rates : List ℝ) : (scheduleAt n rates e).step n = .ok (scheduleAt n rates (e + 1)) := by
  unfold Schedule.step scheduleAt
  rw [if_neg (by omega)]
  simp only [List.map_map, Except.ok.injEq, Schedule.mk.injEq, true_and]
  refine List.map_congr_left fun r _ => ?_
  show (r, nextRate n (e + 1) (r, cosineRate n r e)) = _
  rw [nextRate_cosine h]

theorem rates_scheduleAt (n : Nat) (rates : List ℝ) (e : Nat) : (scheduleAt n rates e).rates = rates.map fun r => cosineRate n r e := by
  simp [Schedule.rates, scheduleAt]

theorem new_eq (n : Nat) (rates : List ℝ) : Schedule.new rates = scheduleAt n rates 0 := by
  simp [Schedule.new, scheduleAt, zero_rate]

/-- C107: the recursive rule gives half a cosine wave: after `e` of `n` steps every group has the learning rate of epoch `e`. -/
theorem C107_schedule (n : Nat) (rates : List ℝ) (e : Nat) (he : e ≤ n) :
    ∃ s, (List.range e).foldlM (fun s _ => s.step n) (Schedule.new rates) = .ok s ∧ s.rates = rates.map fun r => cosineRate n r e := by
  refine ⟨scheduleAt n rates e, ?_, rates_scheduleAt _ _ _⟩
  induction e with
  | zero => rw [new_eq n]; rfl
  | succ e ih =>
    rw [List.range_succ, List.foldlM_append, ih (by omega)]
    simp only [bind, Except.bind, List.foldlM_cons, List.foldlM_nil, step_scheduleAt (Nat.lt_of_succ_le he) rates]
    rfl

/-! ## Runs -/

variable {σ B E : Type}

theorem bind_ok {α β : Type} {x : Py α} {f : α → Py β} {b : β} (h : x.bind f = .ok b) : ∃ a, x = .ok a ∧ f a = .ok b := by
  cases x with
  | error e => exact absurd h (by simp [Except.bind])
  | ok a => exact ⟨a, rfl, h⟩

theorem entry_ok {it : Nat} {ls : List (ℝ × ℝ)} {e : E} {a : Entry E} (h : entry it ls e = .ok a) :
    ls ≠ [] ∧ a = ⟨it, mean (ls.map fun l => l.1 + l.2), mean (ls.map Prod.fst), mean (ls.map Prod.snd), e⟩ := by
  unfold entry at h
  split at h
  · cases h
  · rename_i h0
    cases h
    refine ⟨fun h => h0 (by rw [h]; rfl), ?_⟩
    simp [mean]

/-- What the entry for an epoch says. -/
def Describes (it : Nat) (x : List (ℝ × ℝ) × E) (a : Entry E) : Prop :=
  a.it = it ∧ a.sim = mean (x.1.map Prod.fst) ∧ a.npe = mean (x.1.map Prod.snd) ∧ a.loss = a.sim + a.npe ∧ a.eval = x.2

theorem mean_add (l : List (ℝ × ℝ)) : mean (l.map fun x => x.1 + x.2) = mean (l.map Prod.fst) + mean (l.map Prod.snd) := by
  unfold mean
  simp only [List.length_map]
  rw [← add_div]
  congr 1
  induction l with
  | nil => simp
  | cons x l ih => simp only [List.map_cons, List.sum_cons, ih]; ring

theorem batches_ok {p : Program σ B E} {rates : List ℝ} {bs : List B} {s : σ} {b : List (ℝ × ℝ) × σ} (h : batches p rates bs s = .ok b) : Steps p rates bs s b.1 b.2 := by
  induction bs generalizing s b with
  | nil => cases h; exact .done _
  | cons x bs ih =>
    rw [batches] at h
    obtain ⟨r, h1, h⟩ := bind_ok h
    obtain ⟨q, h2, h⟩ := bind_ok h
    cases h
    exact .more h1 (ih h2)

theorem batches_run {p : Program σ B E} {rates : List ℝ} {bs : List B} {s s' : σ} {l : List (ℝ × ℝ)} (h : Steps p rates bs s l s') : batches p rates bs s = .ok (l, s') := by
  induction h with
  | done => rfl
  | more h _ ih => simp only [batches, bind, Except.bind, h, ih]

theorem loop_ok {p : Program σ B E} {n : Nat} {rates : List ℝ} {k it : Nat} (hk : it + k = n) {s : σ} {r : Result σ E} (h : loop p n k it (scheduleAt n rates it) s = .ok r) :
    ∃ es, Epochs p (fun e => rates.map fun r => cosineRate n r e) it s es r.state ∧ es.length = k ∧ (∀ x ∈ es, x.1 ≠ []) ∧ r.losses = (es.map Prod.fst).flatten ∧ r.tracker.length = k ∧
      (∀ (j : Nat) (h1 : j < es.length) (h2 : j < r.tracker.length), Describes (it + j) es[j] r.tracker[j]) ∧ r.schedule = scheduleAt n rates n := by
  induction k generalizing it s r with
  | zero =>
    have hit : it = n := by omega
    subst hit
    cases h
    exact ⟨[], .done _ _, rfl, by simp, rfl, rfl, by simp, rfl⟩
  | succ k ih =>
    rw [loop] at h
    obtain ⟨b, h1, h⟩ := bind_ok h
    obtain ⟨c', h2, h⟩ := bind_ok h
    obtain ⟨v, h3, h⟩ := bind_ok h
    obtain ⟨a, h4, h⟩ := bind_ok h
    obtain ⟨q, h5, h⟩ := bind_ok h
    cases h
    rw [step_scheduleAt (by omega)] at h2
    cases h2
    obtain ⟨es, g1, g2, g3, g4, g5, g6, g7⟩ := ih (by omega) h5
    obtain ⟨e1, rfl⟩ := entry_ok h4
    rw [rates_scheduleAt] at h1
    refine ⟨(b.1, v.1) :: es, .more (s' := v.2) rfl (batches_ok h1) h3 g1, by simp [g2], ?_, ?_, by simp [g5], ?_, g7⟩
    · intro x hx
      rcases List.mem_cons.1 hx with rfl | hx
      · exact e1
      · exact g3 x hx
    · rw [List.map_cons, List.flatten_cons, g4]
    · intro j h1 h2
      cases j with
      | zero => exact ⟨rfl, rfl, rfl, mean_add _, rfl⟩
      | succ j =>
        have := g6 j (by simpa using h1) (by simpa using h2)
        have e : it + (j + 1) = it + 1 + j := by omega
        rw [e]
        exact this

/-- C107: a run of `rot.py` or `balls.py` that ends without an exception consists of `niters` epochs; in epoch `e` every update uses the learning rate of half a cosine wave from the given rate to zero, for all batches
and groups alike; one entry per epoch is recorded, in order, with the mean of the losses of its batches, the loss being the sum of its two parts; `losses` lists all batches in order; at the end the learning rates are
zero. -/
theorem C107_run {p : Program σ B E} {rates : List ℝ} {niters : Nat} {s : σ} {r : Result σ E} (h : run p rates niters s = .ok r) :
    ∃ es, Epochs p (fun e => rates.map fun r => cosineRate niters r e) 0 s es r.state ∧ es.length = niters ∧ (∀ x ∈ es, x.1 ≠ []) ∧ r.losses = (es.map Prod.fst).flatten ∧ r.tracker.length = niters ∧
      (∀ (j : Nat) (h1 : j < es.length) (h2 : j < r.tracker.length), Describes j es[j] r.tracker[j]) ∧ (0 < niters → r.schedule.rates = rates.map fun _ => 0) := by
  unfold run at h
  rw [new_eq niters] at h
  obtain ⟨es, g1, g2, g3, g4, g5, g6, g7⟩ := loop_ok (by omega) h
  refine ⟨es, g1, g2, g3, g4, g5, fun j h1 h2 => ?_, fun hn => ?_⟩
  · have := g6 j h1 h2
    rwa [Nat.zero_add] at this
  · rw [g7, rates_scheduleAt]
    exact List.map_congr_left fun r _ => last_rate hn r

theorem loop_run {p : Program σ B E} {n : Nat} {rates : List ℝ} {k it : Nat} (hk : it + k = n) {s s' : σ} {es : List (List (ℝ × ℝ) × E)} (he : Epochs p (fun e => rates.map fun r => cosineRate n r e) it s es s')
    (hl : es.length = k) (hne : ∀ x ∈ es, x.1 ≠ []) : ∃ r, loop p n k it (scheduleAt n rates it) s = .ok r ∧ r.state = s' := by
  induction k generalizing it s es with
  | zero =>
    obtain rfl := List.length_eq_zero_iff.1 hl
    cases he
    exact ⟨_, rfl, rfl⟩
  | succ k ih =>
    cases he with
    | done => simp at hl
    | more hd hs g2 hr =>
      rename_i bs s1 l s2 e s3 rest
      obtain ⟨r, h1, h2⟩ := ih (by omega) hr (by simpa using hl) fun x hx => hne x (List.mem_cons_of_mem _ hx)
      have g1 := batches_run hs
      have hb : l ≠ [] := hne (l, e) (by simp)
      have g3 : entry it l e = .ok ⟨it, (l.map fun x => x.1 + x.2).sum / l.length, (l.map Prod.fst).sum / l.length, (l.map Prod.snd).sum / l.length, e⟩ := by
        unfold entry
        rw [if_neg (by simpa using hb)]
      rw [loop, rates_scheduleAt, hd]
      refine ⟨⟨⟨it, (l.map fun x => x.1 + x.2).sum / l.length, (l.map Prod.fst).sum / l.length, (l.map Prod.snd).sum / l.length, e⟩ :: r.tracker, l ++ r.losses, r.schedule, r.state⟩, ?_, h2⟩
      simp only [bind, Except.bind, g1, step_scheduleAt (show it < n by omega) rates, g2, g3, h1]

/-- C107: conversely, if `niters` epochs with these learning rates are possible, and none is without a batch, the run succeeds and ends in their state. -/
theorem C107_succeeds {p : Program σ B E} {rates : List ℝ} {niters : Nat} {s s' : σ} {es : List (List (ℝ × ℝ) × E)} (he : Epochs p (fun e => rates.map fun r => cosineRate niters r e) 0 s es s') (hl : es.length = niters)
    (hne : ∀ x ∈ es, x.1 ≠ []) : ∃ r, run p rates niters s = .ok r ∧ r.state = s' := by
  unfold run
  rw [new_eq niters]
  exact loop_run (by omega) he hl hne

theorem loopCc_ok {p : Program σ B E} {n : Nat} {rates : List ℝ} {k it : Nat} (hk : it + k = n) {s : σ} {r : Result σ E} (h : loopCc p n k it (scheduleAt n rates it) s = .ok r) :
    ∃ es, Epochs p (fun e => rates.map fun r => cosineRate n r e) it s es r.state ∧ es.length = k ∧ (∀ x ∈ es, x.1 ≠ []) ∧ r.losses = (es.map Prod.fst).flatten ∧ r.tracker.length = k ∧
      (∀ (j : Nat) (h1 : j < es.length) (h2 : j < r.tracker.length), Describes (it + j) es[j] r.tracker[j]) ∧ r.schedule = scheduleAt n rates n := by
  induction k generalizing it s r with
  | zero =>
    have hit : it = n := by omega
    subst hit
    cases h
    exact ⟨[], .done _ _, rfl, by simp, rfl, rfl, by simp, rfl⟩
  | succ k ih =>
    rw [loopCc] at h
    obtain ⟨b, h1, h⟩ := bind_ok h
    obtain ⟨a, h4, h⟩ := bind_ok h
    obtain ⟨v, h3, h⟩ := bind_ok h
    obtain ⟨c', h2, h⟩ := bind_ok h
    obtain ⟨q, h5, h⟩ := bind_ok h
    cases h
    rw [step_scheduleAt (by omega)] at h2
    cases h2
    obtain ⟨es, g1, g2, g3, g4, g5, g6, g7⟩ := ih (by omega) h5
    obtain ⟨e1, rfl⟩ := entry_ok h4
    rw [rates_scheduleAt] at h1
    refine ⟨(b.1, v.1) :: es, .more (s' := v.2) rfl (batches_ok h1) h3 g1, by simp [g2], ?_, ?_, by simp [g5], ?_, g7⟩
    · intro x hx
      rcases List.mem_cons.1 hx with rfl | hx
      · exact e1
      · exact g3 x hx
    · rw [List.map_cons, List.flatten_cons, g4]
    · intro j h1 h2
      cases j with
      | zero => exact ⟨rfl, rfl, rfl, mean_add _, rfl⟩
      | succ j =>
        have := g6 j (by simpa using h1) (by simpa using h2)
        have e : it + (j + 1) = it + 1 + j := by omega
        rw [e]
        exact this

/-- C107 for `cc.py`: the same with two groups of parameters (block and classifier), both with the learning rates of half a cosine wave in every epoch. -/
theorem C107_run_cc {p : Program σ B E} {rate : ℝ} {niters : Nat} {s : σ} {r : Result σ E} (h : runCc p rate niters s = .ok r) :
    ∃ es, Epochs p (fun e => [cosineRate niters rate e, cosineRate niters rate e]) 0 s es r.state ∧ es.length = niters ∧ (∀ x ∈ es, x.1 ≠ []) ∧ r.losses = (es.map Prod.fst).flatten ∧ r.tracker.length = niters ∧
      (∀ (j : Nat) (h1 : j < es.length) (h2 : j < r.tracker.length), Describes j es[j] r.tracker[j]) ∧ (0 < niters → r.schedule.rates = [0, 0]) := by
  unfold runCc at h
  rw [new_eq niters] at h
  obtain ⟨es, g1, g2, g3, g4, g5, g6, g7⟩ := loopCc_ok (by omega) h
  refine ⟨es, g1, g2, g3, g4, g5, fun j h1 h2 => ?_, fun hn => ?_⟩
  · have := g6 j h1 h2
    rwa [Nat.zero_add] at this
  · rw [g7, rates_scheduleAt]
    simp [last_rate hn]

/-! ## The parameters of the optimizer

`rot.py:324-326` and `balls.py:354-356` create the optimizer before the network was used once, with the parameters of the whole network; `ShootingBlockBase.parameters`, which would refuse, is not called for a block inside
another module. -/

theorem forward_reg {α T Θ R : Type} [Zero α] (cfg : Block.Cfg α T Θ R) (r : R) {i : Block.Inp α} (h1 : i.state = none) (h2 : i.costate = none) (s : Block.St α T Θ) : (Block.forward cfg r i s).1.reg = s.reg := by
  unfold Block.forward
  split
  · rfl
  rw [h1, h2, show Block.passThrough cfg r none none s = (s, .ok (none, none)) from rfl]
  dsimp only
  split
  · rfl
  rename_i data pad _
  have g := (Block.initial_same cfg data none none pad s).2.1.reg
  split
  · rename_i hi
    rw [hi] at g
    exact g
  rename_i s2 x0 plans hi
  rw [hi] at g
  split
  · exact g
  · exact g

/-- C107: no forward pass (without other blocks before it), change of the integration times, move or update registers a further parameter or removes one: what the optimizer got before the first forward pass are all parameters of
the block, after any history. -/
theorem C107_parameters {α T Θ R : Type} [Zero α] [OfNat T 0] (cfg : Block.Cfg α T Θ R) (s : Block.St α T Θ) (ops : List (Block.Op α T Θ R))
    (h : ∀ op ∈ ops, ∀ r i, op = .forward r i → i.state = none ∧ i.costate = none) : (Block.after cfg s ops).reg = s.reg := by
  induction ops generalizing s with
  | nil => rfl
  | cons op ops ih =>
    rw [show Block.after cfg s (op :: ops) = Block.after cfg (Block.step cfg s op) ops from rfl, ih _ fun o ho => h o (List.mem_cons_of_mem _ ho)]
    cases op with
    | forward r i =>
      obtain ⟨h1, h2⟩ := h (.forward r i) List.mem_cons_self r i rfl
      exact forward_reg cfg r h1 h2 s
    | setTime t => rfl
    | setTimeVector v => rfl
    | move => rfl
    | train f g => exact (Block.train_fields f g s).2.2.2.1

/-! ## Runs without an epoch or without a batch -/

/-- C107: with `niters = 0` nothing happens: the state is the initial state and nothing is recorded. -/
theorem C107_no_epoch (p : Program σ B E) (rates : List ℝ) (s : σ) : run p rates 0 s = .ok ⟨[], [], Schedule.new rates, s⟩ := rfl

/-- C107: an epoch without a batch stops the run with a division by zero, after the evaluation. -/
theorem C107_no_batch {p : Program σ B E} {rates : List ℝ} {niters : Nat} {s s' : σ} {v : E × σ} (hn : 0 < niters) (hd : p.draw s = ([], s')) (hv : p.evaluate s' = .ok v) : run p rates niters s = .error .zeroDivision := by
  obtain ⟨k, rfl⟩ : ∃ k, niters = k + 1 := ⟨niters - 1, by omega⟩
  unfold run
  rw [new_eq (k + 1), loop, hd]
  have h1 : batches p (scheduleAt (k + 1) rates 0).rates [] s' = .ok ([], s') := rfl
  have h2 : entry 0 [] v.1 = .error .zeroDivision := rfl
  simp only [bind, Except.bind, h1, step_scheduleAt (show 0 < k + 1 by omega) rates, hv, h2]

/-! ## A case

Gradient descent for `x² / 2 + 1` with two batches in each epoch; the evaluation returns `x`. -/

/-- The program of the case. -/
noncomputable def descent : Program ℝ Unit ℝ := ⟨fun s => ([(), ()], s), fun _ s => .ok ((s * s / 2, 1), s), fun rates _ s => s - (rates.head?.getD 0) * s, fun s => .ok (s, s)⟩

theorem rate_zero (n : Nat) (r : ℝ) : cosineRate n r 0 = r := by
  unfold cosineRate
  rw [Nat.cast_zero, mul_zero, zero_div, Real.cos_zero]
  ring

theorem rate_one (r : ℝ) : cosineRate 2 r 1 = r / 2 := by
  unfold cosineRate
  rw [show Real.pi * ((1 : Nat) : ℝ) / ((2 : Nat) : ℝ) = Real.pi / 2 by push_cast; ring, Real.cos_pi_div_two]
  ring

/-- Two epochs with the learning rates 1/2 and 1/4. -/
theorem descent_epochs : Epochs descent (fun e => [(1 / 2 : ℝ)].map fun r => cosineRate 2 r e) 0 8 [([(32, 1), (8, 1)], 2), ([(2, 1), (9 / 8, 1)], 9 / 8)] (9 / 8) := by
  have h0 : (List.map (fun r => cosineRate 2 r 0) [(1 / 2 : ℝ)]) = [1 / 2] := by
    simp only [List.map_cons, List.map_nil, rate_zero]
  have h1 : (List.map (fun r => cosineRate 2 r (0 + 1)) [(1 / 2 : ℝ)]) = [1 / 4] := by
    simp only [List.map_cons, List.map_nil, Nat.zero_add, rate_one]
    norm_num
  have use (r s : ℝ) : Steps descent [r] [(), ()] s [(s * s / 2, 1), ((s - r * s) * (s - r * s) / 2, 1)] (s - r * s - r * (s - r * s)) := .more rfl (.more rfl (.done _))
  refine .more (s2 := 2) (s' := 2) rfl ?_ rfl (.more (s2 := 9 / 8) (s' := 9 / 8) rfl ?_ rfl (.done _ _))
  · rw [h0]
    have := use (1 / 2) 8
    norm_num at this
    exact this
  · rw [h1]
    have := use (1 / 4) 2
    norm_num at this
    exact this

example : ∃ r, run descent [1 / 2] 2 8 = .ok r ∧ r.state = 9 / 8 := C107_succeeds descent_epochs rfl (by simp)

example {r : Result ℝ ℝ} (h : run descent [1 / 2] 2 8 = .ok r) : r.tracker.length = 2 ∧ r.schedule.rates = [0] := by
  obtain ⟨es, _, _, _, _, h5, _, h7⟩ := C107_run h
  exact ⟨h5, by simpa using h7 (by decide)⟩

example : run (⟨fun s => ([], s), fun _ s => .ok ((0, 0), s), fun _ _ s => s, fun s => .ok ((), s)⟩ : Program Nat Unit Unit) [1] 3 5 = .error .zeroDivision := C107_no_batch (v := ((), 5)) (by decide) rfl rfl

end Verif.Annealed
