import Verif.Sessions.Histories

/-!
# C97: recordings

All classes (`Rule`), hooks that may raise exceptions, passes and histories of recordings.
-/

set_option linter.unusedSectionVars false

namespace Verif.Sessions
open Verif Verif.Integrand Verif.TimeParams

variable {T X Par Dot N R H D : Type} [LinearOrder T] [OfNat T 0] [Field N]

/-- C97: in any history of recordings and other passes, an action that ends without an exception calls, for each of its evaluations in order, the hooks of all recordings that failed before
and then its own hook; all of them get the dictionary of the action (of the last recording if it is not a recording itself). -/
theorem C97_calls (cfg : Cfg T X Par Dot N R H D) (b : Bool) (i : Nat) (acts : List (Action T X R Par H D))
    (pre : List (Action T X R Par H D × Outcome T X Par Dot H D)) (a : Action T X R Par H D) (o : Outcome T X Par Dot H D) (post : List (Action T X R Par H D × Outcome T X Par Dot H D))
    (h : (history cfg acts (fresh b i)).2 = pre ++ (a, o) :: post) (hok : o.result = .ok ()) :
    o.done.map (fun q => (q.1, q.2.1)) = evaluations a.ops ∧
    o.calls = o.done.flatMap fun q => (leftBehind pre ++ a.hook).map fun g => (g, told (a.data.or (lastData pre)) q) := by
  obtain ⟨s, sl, hi, e1, e2, rfl⟩ := history_state cfg acts (fresh b i) [] (fresh_inv b i) pre a o post h
  change _ = [] ++ _ at e1
  rw [List.nil_append] at e1
  change _ = (lastData pre).or none at e2
  rw [Option.or_none] at e2
  cases a with
  | otherId => exact ⟨rfl, rfl⟩
  | pass l =>
    obtain ⟨c1, c2⟩ := (pass_calls cfg l s hi).2 hok
    refine ⟨c2, ?_⟩
    change (pass cfg l s).2.calls = _
    rw [c1, hooks_inv hi, e1, e2]
    simp [Action.hook, Action.data]
    rfl
  | record g d l =>
    have hs := started (R := R) (X := X) (Dot := Dot) cfg g d hi
    have hr := record_eq cfg g d l s
    change (record cfg g d l s).2.result = _ at hok
    rw [hr] at hok
    obtain ⟨c1, c2⟩ := (pass_calls cfg l _ hs).2 hok
    change (record cfg g d l s).2.done.map _ = _ ∧ (record cfg g d l s).2.calls = (record cfg g d l s).2.done.flatMap _
    rw [hr]
    refine ⟨c2, ?_⟩
    rw [c1, hooks_inv hs, List.filterMap_append, e1]
    rfl

/-- C97: an action that ends with an exception has told the same hooks about the evaluations completed before; then either nobody was told about the evaluation that failed, or one of the hooks
raised the exception after those in front of it had been called. -/
theorem C97_calls_error (cfg : Cfg T X Par Dot N R H D) (b : Bool) (i : Nat) (acts : List (Action T X R Par H D))
    (pre : List (Action T X R Par H D × Outcome T X Par Dot H D)) (a : Action T X R Par H D) (o : Outcome T X Par Dot H D) (post : List (Action T X R Par H D × Outcome T X Par Dot H D))
    (h : (history cfg acts (fresh b i)).2 = pre ++ (a, o) :: post) (e : Err) (he : o.result = .error e) :
    ∃ rest, o.calls = (o.done.flatMap fun q => (leftBehind pre ++ a.hook).map fun g => (g, told (a.data.or (lastData pre)) q)) ++ rest ∧
      (rest = [] ∨ ∃ (x : Args T X Par Dot D) (gs : List H) (g : H) (gs' : List H), leftBehind pre ++ a.hook = gs ++ g :: gs' ∧ (x.t, x.x) ∈ evaluations a.ops ∧
        x.custom = a.data.or (lastData pre) ∧ (∀ f ∈ gs, cfg.hookFails f x = none) ∧ cfg.hookFails g x = some e ∧ rest = (gs ++ [g]).map fun f => (f, x)) := by
  obtain ⟨s, sl, hi, e1, e2, rfl⟩ := history_state cfg acts (fresh b i) [] (fresh_inv b i) pre a o post h
  change _ = [] ++ _ at e1
  rw [List.nil_append] at e1
  change _ = (lastData pre).or none at e2
  rw [Option.or_none] at e2
  cases a with
  | otherId => cases he
  | pass l =>
    have c := (pass_calls cfg l s hi).1 e he
    rw [hooks_inv hi, e1, e2] at c
    rw [show leftBehind pre ++ (Action.pass l : Action T X R Par H D).hook = leftBehind pre from List.append_nil _]
    exact c
  | record g d l =>
    have hs := started (R := R) (X := X) (Dot := Dot) cfg g d hi
    have hr := record_eq cfg g d l s
    change (record cfg g d l s).2.result = _ at he
    rw [hr] at he
    have c := (pass_calls cfg l _ hs).1 e he
    rw [hooks_inv hs, List.filterMap_append, e1] at c
    change ∃ rest, (record cfg g d l s).2.calls = ((record cfg g d l s).2.done.flatMap _) ++ rest ∧ _
    rw [hr]
    exact c

/-- C97: what a dictionary contains at the end if no recording failed: each evaluation of the recordings made with it, once and in order, and nothing else.  Training, testing and
recordings with other dictionaries leave no trace.

The full claim, without the condition, is false: `C97_repeated`, `C97_goes_on`. -/
theorem C97_recording_partial [DecidableEq D] (cfg : Cfg T X Par Dot N R H D) (b : Bool) (i : Nat) (acts : List (Action T X R Par H D)) (d : D)
    (hok : ∀ p ∈ (history cfg acts (fresh b i)).2, ¬ Failed p) :
    writtenTo d (history cfg acts (fresh b i)).2 =
      (history cfg acts (fresh b i)).2.flatMap fun p => if p.1.data = some d then p.2.done.flatMap fun q => p.1.hook.map fun g => (g, told (some d) q) else [] := by
  have key : ∀ p ∈ (history cfg acts (fresh b i)).2, p.2.calls.filter (fun c => c.2.custom = some d) =
      if p.1.data = some d then p.2.done.flatMap fun q => p.1.hook.map fun g => (g, told (some d) q) else [] := by
    rintro ⟨a, o⟩ hp
    obtain ⟨pre, post, hsplit⟩ := List.append_of_mem hp
    have ho : o.result = .ok () := by
      cases hr : o.result with
      | ok u => rfl
      | error e => exact absurd ⟨e, hr⟩ (hok _ hp)
    have hl : leftBehind pre = [] := by
      unfold leftBehind
      rw [List.flatMap_eq_nil_iff]
      intro q hq
      rw [if_neg (hok q (by rw [hsplit]; exact List.mem_append_left _ hq))]
    obtain ⟨-, hc⟩ := C97_calls cfg b i acts pre a o post hsplit ho
    rw [hl, List.nil_append] at hc
    dsimp only
    rw [hc]
    cases a with
    | otherId =>
      have hn : List.flatMap (fun q => (Action.otherId : Action T X R Par H D).hook.map fun g => (g, told ((Action.otherId : Action T X R Par H D).data.or (lastData pre)) q)) o.done = [] := by
        rw [List.flatMap_eq_nil_iff]
        exact fun _ _ => rfl
      rw [hn, if_neg (fun hh => (by cases hh))]
      rfl
    | pass l =>
      have hn : List.flatMap (fun q => (Action.pass l : Action T X R Par H D).hook.map fun g => (g, told ((Action.pass l : Action T X R Par H D).data.or (lastData pre)) q)) o.done = [] := by
        rw [List.flatMap_eq_nil_iff]
        exact fun _ _ => rfl
      rw [hn, if_neg (fun hh => (by cases hh))]
      rfl
    | record g d' l =>
      show List.filter _ (List.flatMap (fun q => [(g, told (some d') q)]) o.done) = if some d' = some d then List.flatMap (fun q => [(g, told (some d) q)]) o.done else []
      by_cases hd : d' = d
      · subst hd
        rw [if_pos rfl, List.filter_eq_self]
        intro c hc'
        simp only [List.mem_flatMap, List.mem_singleton] at hc'
        obtain ⟨q, -, rfl⟩ := hc'
        simp [told]
      · rw [if_neg (fun hh => hd (Option.some.inj hh)), List.filter_eq_nil_iff]
        intro c hc'
        simp only [List.mem_flatMap, List.mem_singleton] at hc'
        obtain ⟨q, -, rfl⟩ := hc'
        simp [told, hd]
  unfold writtenTo
  rw [List.filter_flatMap]
  generalize (history cfg acts (fresh b i)).2 = L at key ⊢
  induction L with
  | nil => rfl
  | cons p L ih =>
    rw [List.flatMap_cons, List.flatMap_cons, key p (List.mem_cons_self ..), ih (fun q hq => key q (List.mem_cons_of_mem _ hq))]

/-- Hook 7 never fails.  Two recordings and training between them: each dictionary has the evaluations of its own recording. -/
example : let acts : List (Action ℤ ℤ ℤ ℤ Nat Nat) := [.pass [.reset, .eval 0 5 (0, 0)], .record 7 1 [.reset, .eval 0 3 (0, 0), .eval 1 4 (0, 0)], .pass [.eval 0 9 (0, 0)],
      .record 7 2 [.reset, .eval 0 6 (0, 0)]]
    (∀ p ∈ (history (demo true) acts (fresh false 0)).2, ¬ Failed p) ∧
    (writtenTo 1 (history (demo true) acts (fresh false 0)).2).map (fun c => (c.2.t, c.2.x)) = [(0, 3), (1, 4)] ∧
    (writtenTo 2 (history (demo true) acts (fresh false 0)).2).map (fun c => (c.2.t, c.2.x)) = [(0, 6)] := by
  decide +kernel

/-- C97: after `k` failed recordings every evaluation of a recording is written `k + 1` times. -/
theorem C97_repeated (cfg : Cfg T X Par Dot N R H D) (b : Bool) (i : Nat) (acts : List (Action T X R Par H D))
    (pre : List (Action T X R Par H D × Outcome T X Par Dot H D)) (h : H) (d : D) (l : List (PassOp T X R Par)) (o : Outcome T X Par Dot H D)
    (post : List (Action T X R Par H D × Outcome T X Par Dot H D)) (hh : (history cfg acts (fresh b i)).2 = pre ++ (.record h d l, o) :: post) (hok : o.result = .ok ()) :
    (∀ c ∈ o.calls, c.2.custom = some d) ∧ o.calls.length = ((leftBehind pre).length + 1) * (evaluations l).length := by
  obtain ⟨h1, h2⟩ := C97_calls cfg b i acts pre _ o post hh hok
  refine ⟨?_, ?_⟩
  · intro c hc
    rw [h2] at hc
    simp only [List.mem_flatMap, List.mem_map] at hc
    obtain ⟨q, -, g, -, rfl⟩ := hc
    rfl
  · have hl : o.done.length = (evaluations l).length := by
      have := congrArg List.length h1
      rwa [List.length_map] at this
    rw [h2, List.length_flatMap, ← hl]
    have : (fun q : T × X × Out Par Dot => ((leftBehind pre ++ (Action.record h d l : Action T X R Par H D).hook).map fun g =>
        (g, told ((Action.record h d l : Action T X R Par H D).data.or (lastData pre)) q)).length) = fun _ => (leftBehind pre).length + 1 := by
      funext q
      simp [Action.hook]
    rw [this]
    clear this h2 h1 hl hok hh
    induction o.done with
    | nil => rfl
    | cons q t ih => rw [List.map_cons, List.sum_cons, ih, List.length_cons, Nat.mul_add, Nat.mul_one, Nat.add_comm]

/-- C97: and passes that are no recordings go on writing to the dictionary of the last recording. -/
theorem C97_goes_on (cfg : Cfg T X Par Dot N R H D) (b : Bool) (i : Nat) (acts : List (Action T X R Par H D))
    (pre : List (Action T X R Par H D × Outcome T X Par Dot H D)) (l : List (PassOp T X R Par)) (o : Outcome T X Par Dot H D)
    (post : List (Action T X R Par H D × Outcome T X Par Dot H D)) (hh : (history cfg acts (fresh b i)).2 = pre ++ (.pass l, o) :: post) (hok : o.result = .ok ()) :
    (o.calls = [] ↔ leftBehind pre = [] ∨ evaluations l = []) ∧ ∀ c ∈ o.calls, c.2.custom = lastData pre := by
  obtain ⟨h1, h2⟩ := C97_calls cfg b i acts pre _ o post hh hok
  have hd : evaluations l = [] ↔ o.done = [] := by
    change _ = evaluations l at h1
    rw [← h1, List.map_eq_nil_iff]
  refine ⟨?_, ?_⟩
  · rw [h2, List.flatMap_eq_nil_iff, hd]
    show (∀ q ∈ o.done, List.map _ (leftBehind pre ++ []) = []) ↔ _
    simp only [List.append_nil, List.map_eq_nil_iff]
    constructor
    · intro hq
      cases ho : o.done with
      | nil => exact .inr rfl
      | cons q t => exact .inl (hq q (by rw [ho]; exact List.mem_cons_self ..))
    · rintro (hq | hq)
      · exact fun _ _ => hq
      · rw [hq]
        intro q hq'
        cases hq'
  · intro c hc
    rw [h2] at hc
    simp only [List.mem_flatMap, List.mem_map] at hc
    obtain ⟨q, -, g, -, rfl⟩ := hc
    rfl

/-- An integrand whose hook 8 raises an exception at input 100. -/
def fragile : Cfg ℤ ℤ ℤ ℤ ℚ ℤ Nat Nat := { demo true with hookFails := fun h a => if h = 8 ∧ a.x = 100 then some .keyError else none }

/-- C97 is false without the condition: a recording fails and the program continues; the next recording has its evaluation twice, and training is written to it. -/
theorem C97_not_once : let acts : List (Action ℤ ℤ ℤ ℤ Nat Nat) := [.record 8 1 [.reset, .eval 0 100 (0, 0)], .record 8 2 [.reset, .eval 0 6 (0, 0)], .pass [.eval 0 9 (0, 0)]]
    ((history fragile acts (fresh false 0)).2.map fun p => decide (Failed p)) = [true, false, false] ∧
    (writtenTo 2 (history fragile acts (fresh false 0)).2).map (fun c => (c.2.t, c.2.x)) = [(0, 6), (0, 6), (0, 9)] := by
  decide +kernel

end Verif.Sessions
