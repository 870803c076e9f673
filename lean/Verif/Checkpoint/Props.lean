import Verif.Checkpoint.Model
import Mathlib.Order.Basic
import Mathlib.Order.Defs.LinearOrder
import Mathlib.Order.Nat
import Mathlib.Tactic.Common

/-!
# C71: what the result files hold, after any history and any crash
-/

namespace Verif.Checkpoint

variable {E : Type} [LinearOrder E]

/-- Epoch `k` has the smallest validation error of the run, and is the last with that error.  Epochs whose error is NaN do not count. -/
def IsBest (errors : List (Option E)) (k : Nat) : Prop :=
  ∃ e, errors[k]? = some (some e) ∧ ∀ j e', errors[j]? = some (some e') → e ≤ e' ∧ (e' = e → j ≤ k)

theorem isBest_unique (errors : List (Option E)) (k k' : Nat) (h : IsBest errors k) (h' : IsBest errors k') : k = k' := by
  obtain ⟨e, he, hb⟩ := h
  obtain ⟨e', he', hb'⟩ := h'
  have h1 := hb k' e' he'
  have h2 := hb' k e he
  have : e' = e := le_antisymm h2.1 h1.1
  exact le_antisymm (h2.2 this.symm) (h1.2 this)

theorem isBest_snoc (errors : List (Option E)) (k : Nat) (x : Option E) (h : IsBest errors k) :
    (∀ e e', errors[k]? = some (some e) → x = some e' → e' ≤ e → IsBest (errors ++ [x]) errors.length) ∧
      ((∀ e e', errors[k]? = some (some e) → x = some e' → ¬ e' ≤ e) → IsBest (errors ++ [x]) k) := by
  obtain ⟨e, he, hb⟩ := h
  have hk : k < errors.length := by
    by_contra hn
    rw [List.getElem?_eq_none (by omega)] at he
    cases he
  constructor
  · intro e1 e' h1 hx hle
    rw [he] at h1
    cases h1
    refine ⟨e', by simp [hx], fun j f hj => ?_⟩
    rcases Nat.lt_trichotomy j errors.length with h | h | h
    · rw [List.getElem?_append_left h] at hj
      exact ⟨le_trans hle (hb j f hj).1, fun _ => h.le⟩
    · subst h
      rw [List.getElem?_append_right le_rfl] at hj
      simp [hx] at hj
      exact ⟨hj.le, fun _ => le_rfl⟩
    · rw [List.getElem?_eq_none (by simp; omega)] at hj
      cases hj
  · intro hx
    refine ⟨e, by rw [List.getElem?_append_left hk]; exact he, fun j f hj => ?_⟩
    rcases Nat.lt_trichotomy j errors.length with h | h | h
    · rw [List.getElem?_append_left h] at hj
      exact hb j f hj
    · subst h
      rw [List.getElem?_append_right le_rfl] at hj
      simp at hj
      have := lt_of_not_ge (hx e f he hj)
      exact ⟨this.le, fun h' => absurd h' this.ne'⟩
    · rw [List.getElem?_eq_none (by simp; omega)] at hj
      cases hj

/-- The situation between two epochs: epoch `k` of the epochs `pre` is the best, with error `e`, and its files are on the disk. -/
structure Between (pre : List (Option E)) (k : Nat) (e : E) : Prop where
  best : IsBest pre k
  error : pre[k]? = some (some e)

theorem between_step (pre : List (Option E)) (k : Nat) (e : E) (h : Between pre k e) (x : Option E) :
    (endEpoch (some (some e)) pre.length x = (some (some e), []) ∧ Between (pre ++ [x]) k e) ∨
      ∃ e', endEpoch (some (some e)) pre.length x = (some (some e'), save pre.length) ∧ Between (pre ++ [x]) pre.length e' := by
  have hk : k < pre.length := by
    by_contra hn
    have := h.error
    rw [List.getElem?_eq_none (by omega)] at this
    cases this
  have hs := isBest_snoc pre k x h.best
  cases x with
  | none =>
    refine Or.inl ⟨rfl, hs.2 (fun _ _ _ h' => by cases h'), ?_⟩
    rw [List.getElem?_append_left hk]
    exact h.error
  | some f =>
    by_cases hle : f ≤ e
    · refine Or.inr ⟨f, by simp [endEpoch, fle, hle], hs.1 e f h.error rfl hle, by simp⟩
    · refine Or.inl ⟨by simp [endEpoch, fle, hle], hs.2 fun e1 f1 h1 h2 => ?_, ?_⟩
      · rw [h.error] at h1
        cases h1
        cases h2
        exact hle
      · rw [List.getElem?_append_left hk]
        exact h.error

theorem final_between (es : List (Option E)) : ∀ (pre : List (Option E)) (k : Nat) (e : E), Between pre k e →
    ∃ k', IsBest (pre ++ es) k' ∧ (writes (some (some e)) pre.length es).foldl Disk.apply ⟨.complete k, .complete k⟩ = ⟨.complete k', .complete k'⟩ := by
  induction es with
  | nil => exact fun pre k e h => ⟨k, by simpa using h.best, rfl⟩
  | cons x es ih =>
    intro pre k e h
    rcases between_step pre k e h x with ⟨h1, h2⟩ | ⟨e', h1, h2⟩
    · obtain ⟨k', hb, hw⟩ := ih _ _ _ h2
      refine ⟨k', by simpa using hb, ?_⟩
      rw [writes, h1]
      simpa using hw
    · obtain ⟨k', hb, hw⟩ := ih _ _ _ h2
      refine ⟨k', by simpa using hb, ?_⟩
      rw [writes, h1, List.foldl_append]
      simpa [save, Disk.apply] using hw

theorem first_epoch (e : E) : endEpoch none 0 (some e) = (some (some e), save 0) := by simp [endEpoch, fle]

theorem first_between (e : E) : Between [some e] 0 e := by
  refine ⟨⟨e, rfl, fun j f hj => ?_⟩, rfl⟩
  cases j with
  | zero =>
    simp at hj
    exact ⟨hj.le, fun _ => le_rfl⟩
  | succ j => simp at hj

/-- C71: if the validation error of the first epoch is a number, then after the run both files hold the results of the epoch with the smallest validation error, the last such epoch if there are several. -/
theorem C71_best_partial (e : E) (errors : List (Option E)) (ws : List Write) (hr : run none (some e :: errors) = some ws) :
    ∃ k, IsBest (some e :: errors) k ∧ final ws = ⟨.complete k, .complete k⟩ := by
  cases hr
  obtain ⟨k, hb, hw⟩ := final_between errors [some e] 0 e (first_between e)
  refine ⟨k, hb, ?_⟩
  unfold final
  rw [writes, first_epoch, List.foldl_append]
  exact hw

example : run none [some 3, none, some 1, some 2, some 1, none] = some (save 0 ++ save 2 ++ save 4) ∧ final (save 0 ++ save 2 ++ save 4) = ⟨.complete 4, .complete 4⟩ := by decide +kernel

theorem writes_nan (errors : List (Option E)) : ∀ k, writes (some (none : Option E)) k errors = [] := by
  induction errors with
  | nil => exact fun _ => rfl
  | cons x es ih =>
    intro k
    have : endEpoch (some (none : Option E)) k x = (some none, []) := by cases x <;> rfl
    rw [writes, this]
    exact ih _

/-- C71: if the validation error of the first epoch is NaN, nothing is ever saved, whatever the errors of the later epochs. -/
theorem C71_nan_first (errors : List (Option E)) : run none ((none : Option E) :: errors) = some [] ∧ final [] = fresh := by
  refine ⟨?_, rfl⟩
  have : endEpoch none 0 (none : Option E) = (some none, []) := rfl
  simp [run, writes, this, writes_nan]

example : (∃ k, IsBest [none, some 1, some (2 : Nat)] k) ∧ run none [none, some 1, some (2 : Nat)] = some [] :=
  ⟨⟨1, 1, rfl, fun j f hj => by rcases j with _ | _ | _ | j <;> simp at hj <;> omega⟩, by decide +kernel⟩

/-- What holds of the disk at any moment: a complete file is the one of the epoch that was best at some time, and complete statistics are never newer than the model. -/
def Good (errors : List (Option E)) (d : Disk) : Prop :=
  (∀ k, d.model = .complete k → ∃ p, IsBest (errors.take p) k) ∧ (∀ k, d.stats = .complete k → ∃ p, IsBest (errors.take p) k) ∧
    ∀ k, d.stats = .complete k → d.model = .broken ∨ ∃ k' ≥ k, d.model = .complete k'

theorem crash_between (es : List (Option E)) : ∀ (pre : List (Option E)) (k : Nat) (e : E), Between pre k e → ∀ n,
    Good (pre ++ es) (((writes (some (some e)) pre.length es).take n).foldl Disk.apply ⟨.complete k, .complete k⟩) := by
  have base : ∀ (pre es : List (Option E)) (k : Nat), IsBest pre k → ∃ p, IsBest ((pre ++ es).take p) k := fun pre es k h => ⟨pre.length, by simpa using h⟩
  induction es with
  | nil =>
    intro pre k e h n
    simp only [writes, List.take_nil, List.foldl_nil]
    exact ⟨fun j hj => by cases hj; exact base _ _ _ h.best, fun j hj => by cases hj; exact base _ _ _ h.best, fun j hj => by cases hj; exact Or.inr ⟨_, le_rfl, rfl⟩⟩
  | cons x es ih =>
    intro pre k e h n
    have hcat : pre ++ x :: es = (pre ++ [x]) ++ es := by simp
    rcases between_step pre k e h x with ⟨h1, h2⟩ | ⟨e', h1, h2⟩
    · have := ih _ _ _ h2 n
      rw [writes, h1, hcat]
      simpa using this
    · have hb1 := base pre (x :: es) k h.best
      have hb2 := base (pre ++ [x]) es _ h2.best
      rw [← hcat] at hb2
      have hk : k ≤ pre.length := by
        by_contra hn
        have := h.error
        rw [List.getElem?_eq_none (by omega)] at this
        cases this
      rw [writes, h1]
      rcases n with _ | _ | _ | _ | n
      · exact ⟨fun j hj => by cases hj; exact hb1, fun j hj => by cases hj; exact hb1, fun j hj => by cases hj; exact Or.inr ⟨_, le_rfl, rfl⟩⟩
      · exact ⟨fun j hj => (nomatch hj), fun j hj => by cases hj; exact hb1, fun j hj => by cases hj; exact Or.inl rfl⟩
      · exact ⟨fun j hj => by cases hj; exact hb2, fun j hj => by cases hj; exact hb1, fun j hj => by cases hj; exact Or.inr ⟨_, hk, rfl⟩⟩
      · exact ⟨fun j hj => by cases hj; exact hb2, fun j hj => (nomatch hj), fun j hj => (nomatch hj)⟩
      · have := ih _ _ _ h2 n
        rw [hcat]
        simpa [save, Disk.apply] using this

/-- C71: wherever the process dies, a file that is complete holds the results of the epoch that was best at some time, and complete statistics are never newer than the model file
(which is then damaged or of the same or a later epoch). -/
theorem C71_crash_partial (errors : List (Option E)) (ws : List Write) (hr : run none errors = some ws) (n : Nat) :
    (∀ k, (crash ws n).model = .complete k → ∃ p, IsBest (errors.take p) k) ∧ (∀ k, (crash ws n).stats = .complete k → ∃ p, IsBest (errors.take p) k) ∧
      ∀ k, (crash ws n).stats = .complete k → (crash ws n).model = .broken ∨ ∃ k' ≥ k, (crash ws n).model = .complete k' := by
  cases hr
  show Good errors _
  unfold crash
  rcases errors with _ | ⟨_ | e, es⟩
  · simp only [writes, List.take_nil]
    exact ⟨fun j hj => (nomatch hj), fun j hj => (nomatch hj), fun j hj => (nomatch hj)⟩
  · have := (C71_nan_first es).1
    simp only [run, Option.some.injEq] at this
    rw [this, List.take_nil]
    exact ⟨fun j hj => (nomatch hj), fun j hj => (nomatch hj), fun j hj => (nomatch hj)⟩
  · have h0 : ∃ p, IsBest ((some e :: es).take p) 0 := ⟨1, by simpa using (first_between e).best⟩
    rw [writes, first_epoch]
    rcases n with _ | _ | _ | _ | n
    · exact ⟨fun j hj => (nomatch hj), fun j hj => (nomatch hj), fun j hj => (nomatch hj)⟩
    · exact ⟨fun j hj => (nomatch hj), fun j hj => (nomatch hj), fun j hj => (nomatch hj)⟩
    · exact ⟨fun j hj => by cases hj; exact h0, fun j hj => (nomatch hj), fun j hj => (nomatch hj)⟩
    · exact ⟨fun j hj => by cases hj; exact h0, fun j hj => (nomatch hj), fun j hj => (nomatch hj)⟩
    · have := crash_between es [some e] 0 e (first_between e) n
      simpa [save, Disk.apply, fresh] using this

/-- C71: a crash can destroy the best model so far: the file is opened for writing before the new model is complete. -/
theorem C71_crash_destroys : ∃ (errors : List (Option Nat)) (ws : List Write) (n : Nat), run none errors = some ws ∧
    crash ws n = ⟨.complete 0, .complete 0⟩ ∧ crash ws (n + 1) = ⟨.broken, .complete 0⟩ :=
  ⟨[some 2, some 1], save 0 ++ save 1, 4, by decide +kernel, by decide +kernel, by decide +kernel⟩

/-- C71: a crash can leave a model and statistics of different epochs, both readable. -/
theorem C71_crash_mixes : ∃ (errors : List (Option Nat)) (ws : List Write) (n : Nat), run none errors = some ws ∧ crash ws n = ⟨.complete 1, .complete 0⟩ :=
  ⟨[some 2, some 1], save 0 ++ save 1, 6, by decide +kernel, by decide +kernel⟩

theorem session_some (rs : List (List (Option E) × Nat)) : ∀ d, session (some d) rs = some d := by
  induction rs with
  | nil => exact fun _ => rfl
  | cons r rs ih => exact ih

/-- C71: results are never overwritten by a later run: after any number of runs with the same `--save_to`, whether they end or die, the directory holds what the first one left,
even if that one died before it saved anything. -/
theorem C71_no_overwrite (r : List (Option E) × Nat) (rs : List (List (Option E) × Nat)) :
    session none (r :: rs) = session none [r] ∧ ∃ ws, run none r.1 = some ws ∧ session none (r :: rs) = some (crash ws r.2) :=
  ⟨session_some rs _, _, rfl, session_some rs _⟩

example : session none [([some 2, some 1], 6), ([some 0], 4)] = some ⟨.complete 1, .complete 0⟩ := by decide +kernel

end Verif.Checkpoint
