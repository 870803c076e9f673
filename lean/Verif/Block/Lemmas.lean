import Verif.Block.Spec

namespace Verif.Block
open Verif

variable {α T Θ R : Type}

/-- Two block states agree in everything a forward pass may not touch. -/
structure Same (s s' : St α T Θ) : Prop where
  time : s'.time = s.time
  timeVector : s'.timeVector = s.timeVector
  state : s'.state = s.state
  costate : s'.costate = s.costate
  theta : s'.theta = s.theta

theorem Same.refl (s : St α T Θ) : Same s s := ⟨rfl, rfl, rfl, rfl, rfl⟩

theorem Same.trans {a b c : St α T Θ} (h : Same a b) (g : Same b c) : Same a c :=
  ⟨g.1.trans h.1, g.2.trans h.2, g.3.trans h.3, g.4.trans h.4, g.5.trans h.5⟩

/-- ... and have the same enlargement parameters. -/
structure SameEnl (s s' : St α T Θ) : Prop where
  enlState : s'.enlState = s.enlState
  enlCostate : s'.enlCostate = s.enlCostate
  reg : s'.reg = s.reg

theorem SameEnl.refl (s : St α T Θ) : SameEnl s s := ⟨rfl, rfl, rfl⟩

theorem SameEnl.trans {a b c : St α T Θ} (h : SameEnl a b) (g : SameEnl b c) : SameEnl a c :=
  ⟨g.1.trans h.1, g.2.trans h.2, g.3.trans h.3⟩

theorem getOrCreate_same (cfg : Cfg α T Θ R) (r : R) (ps pc : TDicts α) (s : St α T Θ) :
    Same s (getOrCreate cfg r ps pc s).1 ∧ (getOrCreate cfg r ps pc s).1.notYet = s.notYet ∧
      (getOrCreate cfg r ps pc s).1.dataDim = s.dataDim ∧
      (s.notYet = false → getOrCreate cfg r ps pc s = (s, .ok ())) := by
  unfold getOrCreate
  split
  · rename_i h
    split
    · exact ⟨.refl s, rfl, rfl, fun h' => by rw [h] at h'; cases h'⟩
    · split
      · exact ⟨.refl s, rfl, rfl, fun h' => by rw [h] at h'; cases h'⟩
      · split
        · exact ⟨⟨rfl, rfl, rfl, rfl, rfl⟩, rfl, rfl, fun h' => by rw [h] at h'; cases h'⟩
        · exact ⟨⟨rfl, rfl, rfl, rfl, rfl⟩, rfl, rfl, fun h' => by rw [h] at h'; cases h'⟩
  · exact ⟨.refl s, rfl, rfl, fun _ => rfl⟩

theorem passThrough_same (cfg : Cfg α T Θ R) (r : R) (ps pc : Option (TDicts α)) (s : St α T Θ) :
    Same s (passThrough cfg r ps pc s).1 ∧ (passThrough cfg r ps pc s).1.notYet = s.notYet ∧
      (passThrough cfg r ps pc s).1.dataDim = s.dataDim ∧ (s.notYet = false → (passThrough cfg r ps pc s).1 = s) := by
  unfold passThrough
  split
  · rename_i ps pc
    split
    · obtain ⟨h1, h2, h3, h4⟩ := getOrCreate_same cfg r ps pc s
      split
      · rename_i h
        rw [h] at h1 h2 h3 h4
        exact ⟨h1, h2, h3, fun hn => (Prod.ext_iff.1 (h4 hn)).1⟩
      · rename_i h
        rw [h] at h1 h2 h3 h4
        exact ⟨h1, h2, h3, fun hn => (Prod.ext_iff.1 (h4 hn)).1⟩
    · exact ⟨.refl s, rfl, rfl, fun _ => rfl⟩
  · exact ⟨.refl s, rfl, rfl, fun _ => rfl⟩

theorem padData_same [Zero α] (cfg : Cfg α T Θ R) (d : TDicts α) (pad : Bool) (s : St α T Θ) :
    Same s (padData cfg d pad s).1 ∧ SameEnl s (padData cfg d pad s).1 ∧ (padData cfg d pad s).1.notYet = s.notYet := by
  unfold padData
  split
  · split
    · exact ⟨.refl s, .refl s, rfl⟩
    · exact ⟨⟨rfl, rfl, rfl, rfl, rfl⟩, ⟨rfl, rfl, rfl⟩, rfl⟩
  · exact ⟨.refl s, .refl s, rfl⟩

theorem initial_same [Zero α] (cfg : Cfg α T Θ R) (d : TDicts α) (ps pc : Option (TDicts α)) (pad : Bool) (s : St α T Θ) :
    Same s (initial cfg d ps pc pad s).1 ∧ SameEnl s (initial cfg d ps pc pad s).1 ∧ (initial cfg d ps pc pad s).1.notYet = s.notYet := by
  unfold initial
  split
  · exact ⟨.refl s, .refl s, rfl⟩
  · exact ⟨.refl s, .refl s, rfl⟩
  · have h := padData_same cfg d pad s
    split
    · rename_i hp
      rw [hp] at h
      exact h
    · rename_i hp
      rw [hp] at h
      exact h

/-- Everything a forward pass changes besides its outputs. -/
theorem forward_same [Zero α] (cfg : Cfg α T Θ R) (r : R) (i : Inp α) (s : St α T Θ) :
    Same s (forward cfg r i s).1 ∧
      (∀ o, (forward cfg r i s).2 = .ok o → (forward cfg r i s).1.notYet = false) ∧
      (∀ e, (forward cfg r i s).2 = .error e → (forward cfg r i s).1.notYet = s.notYet) ∧
      (s.notYet = false → SameEnl s (forward cfg r i s).1) := by
  unfold forward
  split
  · exact ⟨.refl s, fun o ho => (by cases ho), fun _ _ => rfl, fun _ => .refl s⟩
  obtain ⟨h1, h2, _, h3⟩ := passThrough_same cfg r i.state i.costate s
  split
  · rename_i h
    rw [h] at h1 h2 h3
    exact ⟨h1, fun o ho => (by cases ho), fun _ _ => h2, fun hn => by rw [h3 hn]; exact .refl s⟩
  rename_i s1 ps pc h
  rw [h] at h1 h2 h3
  have e1 : s.notYet = false → SameEnl s s1 := fun hn => by rw [show s1 = s from h3 hn]; exact .refl s
  split
  · exact ⟨h1, fun o ho => (by cases ho), fun _ _ => h2, e1⟩
  rename_i data pad _
  obtain ⟨g1, g2, g3⟩ := initial_same cfg data ps pc pad s1
  split
  · rename_i hi
    rw [hi] at g1 g2 g3
    exact ⟨h1.trans g1, fun o ho => (by cases ho), fun _ _ => g3.trans h2, fun hn => (e1 hn).trans g2⟩
  rename_i s2 x0 plans hi
  rw [hi] at g1 g2 g3
  split
  · exact ⟨h1.trans g1, fun o ho => (by cases ho), fun _ _ => g3.trans h2, fun hn => (e1 hn).trans g2⟩
  · exact ⟨⟨(h1.trans g1).1, (h1.trans g1).2, (h1.trans g1).3, (h1.trans g1).4, (h1.trans g1).5⟩, fun _ _ => rfl, fun e he => (by cases he),
      fun hn => ⟨((e1 hn).trans g2).1, ((e1 hn).trans g2).2, ((e1 hn).trans g2).3⟩⟩

theorem after_append [Zero α] [OfNat T 0] (cfg : Cfg α T Θ R) (s : St α T Θ) (a b : List (Op α T Θ R)) :
    after cfg s (a ++ b) = after cfg (after cfg s a) b := by
  unfold after
  rw [List.foldl_append]

theorem length_newValues (f : Ref → List α → List α) (reg : PDict String Ref) (r : Ref) (l : List α) :
    (newValues f reg r l).length = l.length := by
  unfold newValues
  split
  · rename_i h
    exact h.2
  · rfl

theorem newValues_of_not_mem (f : Ref → List α → List α) (reg : PDict String Ref) (r : Ref) (l : List α) (h : r ∉ reg.map Prod.snd) :
    newValues f reg r l = l := by
  unfold newValues
  rw [if_neg fun hc => h hc.1]

theorem train_fields (f : Ref → List α → List α) (g : Θ → Θ) (s : St α T Θ) :
    (train f g s).notYet = s.notYet ∧ (train f g s).time = s.time ∧ (train f g s).timeVector = s.timeVector ∧
      (train f g s).reg = s.reg ∧ (train f g s).dataDim = s.dataDim ∧ skeleton (train f g s).enlState = skeleton s.enlState ∧
      skeleton (train f g s).enlCostate = skeleton s.enlCostate := by
  refine ⟨rfl, rfl, rfl, rfl, rfl, ?_, ?_⟩
  all_goals
    unfold train skeleton
    dsimp only
    rw [Option.map_map]
    congr 1
    funext d
    simp only [Function.comp_apply, List.map_map]
    congr 1
    funext b
    simp only [Function.comp_apply, List.map_map]
    congr 2
    funext p
    simp only [Function.comp_apply, Option.map_map]
    congr 2
    funext e
    simp only [Function.comp_apply, length_newValues]

/-- One operation: the flag. -/
theorem step_notYet [Zero α] [OfNat T 0] (cfg : Cfg α T Θ R) (s : St α T Θ) (op : Op α T Θ R) :
    (step cfg s op).notYet = false ↔ s.notYet = false ∨ ∃ r i o, op = .forward r i ∧ (forward cfg r i s).2 = .ok o := by
  cases op with
  | forward r i =>
    obtain ⟨_, h1, h2, _⟩ := forward_same cfg r i s
    show (forward cfg r i s).1.notYet = false ↔ _
    cases hr : (forward cfg r i s).2 with
    | ok o =>
      rw [h1 o hr]
      exact ⟨fun _ => .inr ⟨r, i, o, rfl, hr⟩, fun _ => rfl⟩
    | error e =>
      rw [h2 e hr]
      refine ⟨.inl, ?_⟩
      rintro (h | ⟨r', i', o, he, ho⟩)
      · exact h
      · cases he
        rw [hr] at ho
        cases ho
  | setTime t => exact ⟨fun h => .inl h, fun h => h.elim id (fun ⟨r, i, o, he, _⟩ => by cases he)⟩
  | setTimeVector v => exact ⟨fun h => .inl h, fun h => h.elim id (fun ⟨r, i, o, he, _⟩ => by cases he)⟩
  | move => exact ⟨fun h => .inl h, fun h => h.elim id (fun ⟨r, i, o, he, _⟩ => by cases he)⟩
  | train f g => exact ⟨fun h => .inl h, fun h => h.elim id (fun ⟨r, i, o, he, _⟩ => by cases he)⟩

theorem after_notYet [Zero α] [OfNat T 0] (cfg : Cfg α T Θ R) (s : St α T Θ) (ops : List (Op α T Θ R)) :
    (after cfg s ops).notYet = false ↔ s.notYet = false ∨ SomeSuccess cfg s ops := by
  induction ops generalizing s with
  | nil =>
    refine ⟨.inl, ?_⟩
    rintro (h | ⟨pre, r, i, post, o, h, _⟩)
    · exact h
    · exact absurd h (by simp)
  | cons op ops ih =>
    show (after cfg (step cfg s op) ops).notYet = false ↔ _
    rw [ih, step_notYet]
    constructor
    · rintro ((h | ⟨r, i, o, rfl, ho⟩) | ⟨pre, r, i, post, o, rfl, ho⟩)
      · exact .inl h
      · exact .inr ⟨[], r, i, ops, o, rfl, ho⟩
      · exact .inr ⟨op :: pre, r, i, post, o, rfl, ho⟩
    · rintro (h | ⟨pre, r, i, post, o, he, ho⟩)
      · exact .inl (.inl h)
      · cases pre with
        | nil =>
          cases he
          exact .inl (.inr ⟨r, i, o, rfl, ho⟩)
        | cons op' pre =>
          rw [List.cons_append, List.cons.injEq] at he
          obtain ⟨rfl, rfl⟩ := he
          exact .inr ⟨pre, r, i, post, o, rfl, ho⟩

/-- After a successful pass the registered parameters and the skeleton of the enlargement stay, and without training
everything stays. -/
theorem step_enl [Zero α] [OfNat T 0] (cfg : Cfg α T Θ R) (s : St α T Θ) (hn : s.notYet = false) (op : Op α T Θ R) :
    (step cfg s op).reg = s.reg ∧ skeleton (step cfg s op).enlState = skeleton s.enlState ∧
      skeleton (step cfg s op).enlCostate = skeleton s.enlCostate ∧
      (NoTrain op → (step cfg s op).enlState = s.enlState ∧ (step cfg s op).enlCostate = s.enlCostate) := by
  cases op with
  | forward r i =>
    have h := (forward_same cfg r i s).2.2.2 hn
    refine ⟨h.reg, congrArg _ h.enlState, congrArg _ h.enlCostate, fun _ => ⟨h.enlState, h.enlCostate⟩⟩
  | train f g =>
    obtain ⟨_, _, _, h1, _, h2, h3⟩ := train_fields f g s
    exact ⟨h1, h2, h3, fun h => h.elim⟩
  | setTime t => exact ⟨rfl, rfl, rfl, fun _ => ⟨rfl, rfl⟩⟩
  | setTimeVector v => exact ⟨rfl, rfl, rfl, fun _ => ⟨rfl, rfl⟩⟩
  | move => exact ⟨rfl, rfl, rfl, fun _ => ⟨rfl, rfl⟩⟩

theorem after_enl [Zero α] [OfNat T 0] (cfg : Cfg α T Θ R) (s : St α T Θ) (hn : s.notYet = false) (ops : List (Op α T Θ R)) :
    (after cfg s ops).reg = s.reg ∧ skeleton (after cfg s ops).enlState = skeleton s.enlState ∧
      skeleton (after cfg s ops).enlCostate = skeleton s.enlCostate ∧
      ((∀ o ∈ ops, NoTrain o) → (after cfg s ops).enlState = s.enlState ∧ (after cfg s ops).enlCostate = s.enlCostate) := by
  induction ops generalizing s with
  | nil => exact ⟨rfl, rfl, rfl, fun _ => ⟨rfl, rfl⟩⟩
  | cons op ops ih =>
    obtain ⟨a1, a2, a3, a4⟩ := step_enl cfg s hn op
    obtain ⟨b1, b2, b3, b4⟩ := ih (step cfg s op) ((step_notYet cfg s op).2 (.inl hn))
    refine ⟨b1.trans a1, b2.trans a2, b3.trans a3, fun h => ?_⟩
    obtain ⟨c1, c2⟩ := a4 (h op (by simp))
    obtain ⟨d1, d2⟩ := b4 fun o ho => h o (List.mem_cons_of_mem _ ho)
    exact ⟨d1.trans c1, d2.trans c2⟩

theorem after_when [Zero α] [OfNat T 0] (cfg : Cfg α T Θ R) (s : St α T Θ) (w : When T) (hw : Is s w) (ops : List (Op α T Θ R)) :
    Is (after cfg s ops) (lastWhen w ops) := by
  induction ops generalizing s w with
  | nil => exact hw
  | cons op ops ih =>
    have hsame : ∀ s' : St α T Θ, s'.time = s.time → s'.timeVector = s.timeVector → Is s' w := by
      intro s' h1 h2
      cases w with
      | upTo t => exact ⟨h1.trans hw.1, h2.trans hw.2⟩
      | vector v => exact ⟨h1.trans hw.1, h2.trans hw.2⟩
    cases op with
    | forward r i =>
      have h := (forward_same cfg r i s).1
      exact ih _ w (hsame _ h.time h.timeVector)
    | setTime t => exact ih _ (.upTo t) ⟨rfl, rfl⟩
    | setTimeVector v => exact ih _ (.vector v) ⟨rfl, rfl⟩
    | move => exact ih _ w hw
    | train f g => exact ih _ w (hsame _ rfl rfl)

end Verif.Block
