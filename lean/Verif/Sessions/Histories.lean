import Verif.Sessions.Lemmas

/-!
# Lemmas on histories of recordings
-/

set_option linter.unusedSectionVars false

namespace Verif.Sessions
open Verif Verif.Integrand Verif.TimeParams

variable {T X Par Dot N R H D : Type} [LinearOrder T] [OfNat T 0] [Field N]

theorem hooks_inv {s : St T Par N H D} {sl : List (Option H)} (h : HookInv s sl) : s.hooks.map Prod.snd = sl.filterMap id := by
  rw [h.hooks]
  exact table_map_snd h.length

/-- The state in which the pass of a recording begins. -/
theorem started (cfg : Cfg T X Par Dot N R H D) (h : H) (d : D) {s : St T Par N H D} {sl : List (Option H)} (hi : HookInv s sl) :
    HookInv (step cfg (step cfg s (.register h)).1 (.setCustom d : Op T X R Par H D)).1 (sl ++ [some h]) :=
  (hi.step cfg (.register h : Op T X R Par H D)).step cfg (.setCustom d)

theorem record_eq (cfg : Cfg T X Par Dot N R H D) (h : H) (d : D) (l : List (PassOp T X R Par)) (s : St T Par N H D) :
    (record cfg h d l s).2 = (pass cfg l (step cfg (step cfg s (.register h)).1 (.setCustom d : Op T X R Par H D)).1).2 := by
  unfold record
  dsimp only
  split <;> rfl

theorem record_state (cfg : Cfg T X Par Dot N R H D) (h : H) (d : D) (l : List (PassOp T X R Par)) {s : St T Par N H D} {sl : List (Option H)} (hi : HookInv s sl) :
    ((∃ e, (record cfg h d l s).2.result = .error e) → HookInv (record cfg h d l s).1 (sl ++ [some h])) ∧
    ((record cfg h d l s).2.result = .ok () → HookInv (record cfg h d l s).1 (sl ++ [none])) ∧ (record cfg h d l s).1.custom = some d := by
  have hs := started (R := R) (X := X) (Dot := Dot) cfg h d hi
  obtain ⟨p1, p2, p3, p4⟩ := pass_same cfg l _ hs
  have hr := record_eq cfg h d l s
  rw [hr]
  unfold record
  dsimp only
  cases hres : (pass cfg l (step cfg (step cfg s (.register h)).1 (.setCustom d : Op T X R Par H D)).1).2.result with
  | error e => exact ⟨fun _ => p1, fun hh => (by cases hh), p4⟩
  | ok u =>
    refine ⟨fun ⟨e, he⟩ => (by cases he), fun _ => ?_, ?_⟩
    · have := p1.step cfg (.remove s.handles.length : Op T X R Par H D)
      dsimp only at this
      rw [hi.length, List.set_append_right _ _ (Nat.le_refl _), Nat.sub_self, List.set_cons_zero, ← hi.length] at this
      exact this
    · show (Integrand.remove s.handles.length _).custom = _
      refine Eq.trans ?_ p4
      unfold Integrand.remove
      split <;> rfl

theorem foldl_data (l : List (Action T X R Par H D × Outcome T X Par Dot H D)) (d : Option D) :
    l.foldl (fun d p => p.1.data.or d) d = (lastData l).or d := by
  unfold lastData
  induction l generalizing d with
  | nil => rfl
  | cons p l ih =>
    rw [List.foldl_cons, List.foldl_cons, ih, ih (p.1.data.or none)]
    cases p.1.data <;> cases l.foldl (fun d p => p.1.data.or d) none <;> rfl

theorem lastData_cons (p : Action T X R Par H D × Outcome T X Par Dot H D) (l : List (Action T X R Par H D × Outcome T X Par Dot H D)) :
    lastData (p :: l) = (lastData l).or p.1.data := by
  show l.foldl (fun d p => p.1.data.or d) (p.1.data.or none) = _
  rw [foldl_data, Option.or_none]

/-- What an action does to the hooks and the custom data. -/
theorem act_state (cfg : Cfg T X Par Dot N R H D) (a : Action T X R Par H D) {s : St T Par N H D} {sl : List (Option H)} (hi : HookInv s sl) :
    (∃ sl', HookInv (act cfg a s).1 sl' ∧ sl'.filterMap id = sl.filterMap id ++ if Failed (a, (act cfg a s).2) then a.hook else []) ∧
    (act cfg a s).1.custom = a.data.or s.custom := by
  cases a with
  | otherId =>
    refine ⟨⟨sl, hi.step cfg (.otherId : Op T X R Par H D), ?_⟩, rfl⟩
    rw [if_neg (by rintro ⟨e, he⟩; cases he), List.append_nil]
  | pass l =>
    obtain ⟨p1, p2, p3, p4⟩ := pass_same cfg l s hi
    refine ⟨⟨sl, p1, ?_⟩, p4⟩
    split <;> simp [Action.hook]
  | record h d l =>
    obtain ⟨r1, r2, r3⟩ := record_state cfg h d l hi
    refine ⟨?_, r3⟩
    cases hres : (record cfg h d l s).2.result with
    | error e =>
      refine ⟨_, r1 ⟨e, hres⟩, ?_⟩
      rw [if_pos ⟨e, hres⟩]
      simp [Action.hook]
    | ok u =>
      refine ⟨_, r2 hres, ?_⟩
      rw [if_neg]
      · simp
      · rintro ⟨e, he⟩
        change (record cfg h d l s).2.result = _ at he
        rw [hres] at he
        cases he

/-- The state in which an action of a history begins. -/
theorem history_state (cfg : Cfg T X Par Dot N R H D) (acts : List (Action T X R Par H D)) (s : St T Par N H D) (sl : List (Option H)) (hi : HookInv s sl)
    (pre : List (Action T X R Par H D × Outcome T X Par Dot H D)) (a : Action T X R Par H D) (o : Outcome T X Par Dot H D) (post : List (Action T X R Par H D × Outcome T X Par Dot H D))
    (h : (history cfg acts s).2 = pre ++ (a, o) :: post) :
    ∃ s' sl', HookInv s' sl' ∧ sl'.filterMap id = sl.filterMap id ++ leftBehind pre ∧ s'.custom = (lastData pre).or s.custom ∧ (act cfg a s').2 = o := by
  induction acts generalizing s sl pre with
  | nil => cases pre <;> cases h
  | cons b acts ih =>
    change (b, (act cfg b s).2) :: (history cfg acts (act cfg b s).1).2 = _ at h
    cases pre with
    | nil =>
      rw [List.nil_append, List.cons.injEq, Prod.mk.injEq] at h
      obtain ⟨⟨rfl, h2⟩, h3⟩ := h
      exact ⟨s, sl, hi, by simp [leftBehind], rfl, h2⟩
    | cons p pre =>
      rw [List.cons_append, List.cons.injEq] at h
      obtain ⟨rfl, h2⟩ := h
      obtain ⟨⟨sl', hi', e1⟩, e2⟩ := act_state cfg b hi
      obtain ⟨s'', sl'', j1, j2, j3, j4⟩ := ih _ _ hi' pre h2
      refine ⟨s'', sl'', j1, ?_, ?_, j4⟩
      · rw [j2, e1, List.append_assoc]
        rfl
      · rw [j3, e2, lastData_cons, Option.or_assoc]

theorem history_inv (cfg : Cfg T X Par Dot N R H D) (acts : List (Action T X R Par H D)) (s : St T Par N H D) (sl : List (Option H)) (hi : HookInv s sl) :
    ∃ sl', HookInv (history cfg acts s).1 sl' := by
  induction acts generalizing s sl with
  | nil => exact ⟨sl, hi⟩
  | cons a acts ih =>
    obtain ⟨⟨sl', hi', -⟩, -⟩ := act_state cfg a hi
    exact ih _ _ hi'

theorem fresh_inv (b : Bool) (i : Nat) : HookInv (fresh b i : St T Par N H D) [] := ⟨rfl, List.nodup_nil, by simp [fresh], rfl⟩

end Verif.Sessions
