import Verif.Recompute.Spec
import Verif.Flow.Lemmas
import Verif.Integrand.Lemmas

/-!
# Lemmas for C95
-/

namespace Verif.Recompute
open Verif Verif.Assembly Verif.Flow

variable {α T σ : Type}

/-- Reached by evaluations. -/
inductive Later (F : T → Trip α → σ → σ × Py (Trip α)) : σ → σ → Prop
  | refl (s : σ) : Later F s s
  | step {s s' : σ} (t : T) (x : Trip α) (h : Later F s s') : Later F s (F t x s').1

theorem Later.trans {F : T → Trip α → σ → σ × Py (Trip α)} {a b c : σ} (h : Later F a b) (h' : Later F b c) : Later F a c := by
  induction h' with
  | refl => exact h
  | step t x _ ih => exact ih.step t x

theorem evaluate_plans (F : T → Trip α → σ → σ × Py (Trip α)) (t : T) (v : List α) (m : Mem σ) : (evaluate F t v m).1.plans = m.plans := by
  unfold evaluate
  cases takeApart m (.vec v) none 0 <;> rfl

theorem evaluate_later (F : T → Trip α → σ → σ × Py (Trip α)) (t : T) (v : List α) (m : Mem σ) : Later F m.inner (evaluate F t v m).1.inner := by
  unfold evaluate
  cases takeApart m (.vec v) none 0 with
  | error e => exact .refl _
  | ok x => exact (Later.refl m.inner).step t x

/-- Settled: after a successful evaluation the same evaluation gives the same. -/
def Settles (F : T → Trip α → σ → σ × Py (Trip α)) (s0 : σ) : Prop :=
  ∀ s, Later F s0 s → ∀ t x y, (F t x s).2 = .ok y → ∀ s', Later F (F t x s).1 s' → (F t x s').2 = .ok y

theorem evaluate_again {F : T → Trip α → σ → σ × Py (Trip α)} {s0 : σ} (hF : Settles F s0) {t : T} {v : List α} {m : Mem σ} (hm : Later F s0 m.inner) {w : List α}
    (h : (evaluate F t v m).2 = .ok w) {m' : Mem σ} (hp : m'.plans = m.plans) (hl : Later F (evaluate F t v m).1.inner m'.inner) : (evaluate F t v m').2 = .ok w := by
  have ht : takeApart m' (.vec v) none 0 = takeApart m (.vec v) none 0 := by
    unfold takeApart
    rw [hp]
  unfold evaluate at h hl ⊢
  rw [ht]
  cases hx : takeApart m (.vec v) none 0 with
  | error e => rw [hx] at h; cases h
  | ok x =>
    rw [hx] at h hl
    dsimp only at h hl ⊢
    cases hy : (F t x m.inner).2 with
    | error e => rw [hy] at h; cases h
    | ok y =>
      rw [hF _ hm t x y hy _ hl, ← hy]
      exact h

section
variable [Add α] [Zero α]

theorem run_done (n : Nat) (F : T → Trip α → σ → σ × Py (Trip α)) (outs : List (List α → α)) (rs : List (List α)) (m : Mem σ) :
    run n F (.done outs) rs m = (m, .ok (outs.map fun g => zipVec g n rs)) := rfl

theorem run_fail (n : Nat) (F : T → Trip α → σ → σ × Py (Trip α)) (e : Err) (rs : List (List α)) (m : Mem σ) : run n F (.fail e) rs m = (m, .error e) := rfl

theorem run_test (n : Nat) (F : T → Trip α → σ → σ × Py (Trip α)) (q : List α → α) (next : α → Method α T) (rs : List (List α)) (m : Mem σ) :
    run n F (.test q next) rs m = run n F (next (zipVec q n rs).sum) rs m := rfl

theorem run_eval (n : Nat) (F : T → Trip α → σ → σ × Py (Trip α)) (t : T) (g : List α → α) (next : Method α T) (rs : List (List α)) (m : Mem σ) :
    run n F (.eval t g next) rs m = match (evaluate F t (zipVec g n rs) m).2 with
      | .error e => ((evaluate F t (zipVec g n rs) m).1, .error e)
      | .ok y => run n F next (rs ++ [y]) (evaluate F t (zipVec g n rs) m).1 := by
  conv_lhs => unfold run
  rcases evaluate F t (zipVec g n rs) m with ⟨m', r⟩
  cases r <;> rfl

theorem run_memory (n : Nat) (F : T → Trip α → σ → σ × Py (Trip α)) (M : Method α T) (rs : List (List α)) (m : Mem σ) :
    (run n F M rs m).1.plans = m.plans ∧ Later F m.inner (run n F M rs m).1.inner := by
  induction M generalizing rs m with
  | done outs => exact ⟨rfl, .refl _⟩
  | fail e => exact ⟨rfl, .refl _⟩
  | test q next ih => rw [run_test]; exact ih _ _ _
  | eval t g next ih =>
    rw [run_eval]
    cases (evaluate F t (zipVec g n rs) m).2 with
    | error e => exact ⟨evaluate_plans F _ _ _, evaluate_later F _ _ _⟩
    | ok y =>
      obtain ⟨h1, h2⟩ := ih (rs ++ [y]) (evaluate F t (zipVec g n rs) m).1
      exact ⟨h1.trans (evaluate_plans F _ _ _), (evaluate_later F _ _ _).trans h2⟩

theorem run_again {F : T → Trip α → σ → σ × Py (Trip α)} {s0 : σ} (hF : Settles F s0) (n : Nat) (M : Method α T) {rs : List (List α)} {m : Mem σ} (hm : Later F s0 m.inner) {out : List (List α)}
    (h : (run n F M rs m).2 = .ok out) {m' : Mem σ} (hp : m'.plans = m.plans) (hl : Later F (run n F M rs m).1.inner m'.inner) : (run n F M rs m').2 = .ok out := by
  induction M generalizing rs m m' with
  | done outs => exact h
  | fail e => cases h
  | test q next ih =>
    rw [run_test] at h hl ⊢
    exact ih _ hm h hp hl
  | eval t g next ih =>
    rw [run_eval] at h hl ⊢
    cases hy : (evaluate F t (zipVec g n rs) m).2 with
    | error e => rw [hy] at h; cases h
    | ok y =>
      rw [hy] at h hl
      dsimp only at h hl
      have hl' := (run_memory n F next (rs ++ [y]) (evaluate F t (zipVec g n rs) m).1).2.trans hl
      rw [evaluate_again hF hm hy hp hl']
      exact ih (hm.trans (evaluate_later F _ _ _)) h (by rw [evaluate_plans, evaluate_plans, hp]) (hl.trans (evaluate_later F _ _ _))

/-- Without a memory that matters only the plans count. -/
theorem run_plans {F : T → Trip α → σ → σ × Py (Trip α)} {P : σ → Prop} (hP : ∀ t x s, P s → P (F t x s).1) (hF : ∀ t x s s', P s → P s' → (F t x s).2 = (F t x s').2) (n : Nat) (M : Method α T)
    (rs : List (List α)) {m m' : Mem σ} (h : P m.inner) (h' : P m'.inner) (hp : m.plans = m'.plans) : (run n F M rs m).2 = (run n F M rs m').2 := by
  have hl : ∀ s s', P s → Later F s s' → P s' := by
    intro s s' hs hl
    induction hl with
    | refl => exact hs
    | step t x _ ih => exact hP t x _ ih
  induction M generalizing rs m m' with
  | done outs => rfl
  | fail e => rfl
  | test q next ih =>
    rw [run_test, run_test]
    exact ih _ _ h h' hp
  | eval t g next ih =>
    have e : (evaluate F t (zipVec g n rs) m).2 = (evaluate F t (zipVec g n rs) m').2 := by
      unfold evaluate takeApart
      rw [hp]
      cases disassembleTensor (.vec (zipVec g n rs)) m'.plans 0 with
      | error e => rfl
      | ok x =>
        dsimp only
        rw [hF t x _ _ h h']
    rw [run_eval, run_eval, e]
    cases (evaluate F t (zipVec g n rs) m').2 with
    | error e => rfl
    | ok y => exact ih _ (hl _ _ h (evaluate_later F _ _ _)) (hl _ _ h' (evaluate_later F _ _ _)) (by rw [evaluate_plans, evaluate_plans, hp])

theorem chunks_memory (n : Nat) (F : T → Trip α → σ → σ × Py (Trip α)) (Ms : List (Method α T)) (x : List α) (m : Mem σ) :
    (chunks n F Ms x m).1.plans = m.plans ∧ Later F m.inner (chunks n F Ms x m).1.inner := by
  induction Ms generalizing x m with
  | nil => exact ⟨rfl, .refl _⟩
  | cons M Ms ih =>
    obtain ⟨h1, h2⟩ := run_memory n F M [x] m
    unfold chunks
    rcases hr : run n F M [x] m with ⟨m1, _ | rows⟩ <;> rw [hr] at h1 h2
    · exact ⟨h1, h2⟩
    · dsimp only
      cases rows.getLast? with
      | none => exact ⟨h1, h2⟩
      | some y =>
        dsimp only
        obtain ⟨h3, h4⟩ := ih y m1
        rcases hc : chunks n F Ms y m1 with ⟨m2, _ | more⟩ <;> rw [hc] at h3 h4 <;> exact ⟨h3.trans h1, h2.trans h4⟩
end

/-! ## The integrand -/

section
variable {Par N R H D : Type} [LinearOrder T] [OfNat T 0] [Field N]

omit [LinearOrder T] [OfNat T 0] [Field N] in
theorem runHooks_calm {hf : H → Integrand.Args T (Trip α) Par (TDicts α) D → Option Err} (h : ∀ h a, hf h a = none) (a : Integrand.Args T (Trip α) Par (TDicts α) D) (hs : List H) :
    (Integrand.runHooks hf a hs).2 = .ok () := by
  induction hs with
  | nil => rfl
  | cons g hs ih =>
    unfold Integrand.runHooks
    rw [h]
    exact ih

/-- The checks before parameters are computed. -/
def guards (cfg : Integrand.Cfg T (Trip α) Par (TDicts α) N R H D) (x : Trip α) : Py Unit :=
  if cfg.transpose ∧ ¬(cfg.rule.nState x = 0 ∧ cfg.rule.nCostate x = 0 ∧ cfg.rule.nData x = 0) then .error .keyError
  else if cfg.analytic ∧ (cfg.rule.nState x ≠ 1 ∨ cfg.rule.nCostate x ≠ 1) then .error .valueError
  else .ok ()

/-- The parameters of an evaluation without external parameters. -/
def own (cfg : Integrand.Cfg T (Trip α) Par (TDicts α) N R H D) (s : Integrand.St T Par N H D) (r : R) (x : Trip α) : Py Par :=
  if s.useRnn then s.cache.elim (cfg.rule.compute r x) .ok else cfg.rule.compute r x

/-- The derivatives for given parameters. -/
def outputs (cfg : Integrand.Cfg T (Trip α) Par (TDicts α) N R H D) (x : Trip α) (p : Par) : Py (Trip α) := do
  let ds ← cfg.rule.stateRhs p x
  let dd ← cfg.rule.dataRhs p x
  let dc ← cfg.rule.costateRhs p x
  .ok (ds, dc, dd)

omit [OfNat T 0] [Field N] in
theorem chooseParams_own (cfg : Integrand.Cfg T (Trip α) Par (TDicts α) N R H D) (t : T) (x : Trip α) (r : R) {s : Integrand.St T Par N H D} (h : s.external = false) :
    (Integrand.chooseParams cfg.rule t x r s).2 = own cfg s r x := by
  unfold Integrand.chooseParams own
  cases s.useRnn with
  | false => rfl
  | true =>
    rw [h]
    cases s.cache with
    | some p => rfl
    | none =>
      dsimp only [if_true, Option.elim]
      cases cfg.rule.compute r x <;> rfl

theorem penalty_ok (rule : Integrand.Rule (Trip α) Par (TDicts α) N R) (t : T) (p : Par) {s : Integrand.St T Par N H D} (h : s.external = false) :
    (Integrand.updatePenalty rule t p s).2 = .ok () := by
  unfold Integrand.updatePenalty
  rw [h]
  split <;> rfl

theorem analytic_result (cfg : Integrand.Cfg T (Trip α) Par (TDicts α) N R H D) (t : T) (x : Trip α) (r : R) {s : Integrand.St T Par N H D} (h : s.external = false)
    (hn : ¬(cfg.rule.nState x ≠ 1 ∨ cfg.rule.nCostate x ≠ 1)) :
    (Integrand.gradientsAnalytic cfg.rule t x r s).2.map (fun o => (o.dotState, o.dotCostate, o.dotData)) = (own cfg s r x).bind (outputs cfg x) := by
  unfold Integrand.gradientsAnalytic
  rw [if_neg hn, ← chooseParams_own cfg t x r h]
  have hs := (Integrand.chooseParams_same cfg.rule t x r s).external.trans h
  rcases hch : Integrand.chooseParams cfg.rule t x r s with ⟨s1, e | p⟩ <;> rw [hch] at hs
  · rfl
  · dsimp only at hs ⊢
    have hu := penalty_ok cfg.rule t p hs
    rcases hq : Integrand.updatePenalty cfg.rule t p s1 with ⟨s2, u⟩
    rw [hq] at hu
    obtain rfl : u = .ok () := hu
    dsimp only
    show _ = outputs cfg x p
    unfold outputs
    cases cfg.rule.stateRhs p x with
    | error e => rfl
    | ok ds =>
      cases cfg.rule.dataRhs p x with
      | error e => rfl
      | ok dd =>
        cases cfg.rule.costateRhs p x <;> rfl

theorem autodiff_result (cfg : Integrand.Cfg T (Trip α) Par (TDicts α) N R H D) (hc : Calm cfg) (t : T) (x : Trip α) (r : R × R) {s : Integrand.St T Par N H D} (h : s.external = false) :
    (Integrand.gradientsAutodiff cfg.rule t x r s).2.map (fun o => (o.dotState, o.dotCostate, o.dotData)) = (own cfg s r.1 x).bind (outputs cfg x) := by
  have hown := chooseParams_own cfg t x r.1 h
  rcases Integrand.gradientsAutodiff_cases cfg.rule t x r s with ⟨e, he, hg⟩ | ⟨p, hp, hg⟩
  · rw [hg, ← hown, he]
    rfl
  · have hs2 := (Integrand.chooseParams_same cfg.rule t x r.1 s).trans (Integrand.updatePenalty_same cfg.rule t p (Integrand.chooseParams cfg.rule t x r.1 s).1).1
    have hu := penalty_ok (H := H) (D := D) cfg.rule t p ((Integrand.chooseParams_same cfg.rule t x r.1 s).external.trans h)
    have hl : (Integrand.lagrangianParams cfg.rule x r.2 (Integrand.updatePenalty cfg.rule t p (Integrand.chooseParams cfg.rule t x r.1 s).1).1).2 = .ok p := by
      rw [hown] at hp
      unfold own at hp
      cases hr : s.useRnn with
      | false =>
        unfold Integrand.lagrangianParams
        rw [hs2.useRnn, hr]
        rw [hr] at hp
        exact (hc.2 _ _ _).trans hp
      | true =>
        have hcache : (Integrand.updatePenalty cfg.rule t p (Integrand.chooseParams cfg.rule t x r.1 s).1).1.cache = some p := by
          rw [(Integrand.updatePenalty_same ..).2.1]
          obtain ⟨c1, _, c3⟩ := Integrand.chooseParams_rnn cfg.rule t x r.1 hr h
          rw [c1]
          exact c3 p (hown.trans (by unfold own; exact hp))
        rw [Integrand.lagrangianParams_cached cfg.rule x r.2 (hs2.useRnn.trans hr) (hs2.external.trans h) hcache]
    rw [← hown, hp]
    show _ = outputs cfg x p
    unfold Integrand.gradientsAutodiff outputs
    rcases hq : Integrand.chooseParams cfg.rule t x r.1 s with ⟨s1, q⟩
    rw [hq] at hp hu hl
    obtain rfl : q = .ok p := hp
    dsimp only at hu hl ⊢
    rcases hq2 : Integrand.updatePenalty cfg.rule t p s1 with ⟨s2, u⟩
    rw [hq2] at hu hl
    obtain rfl : u = .ok () := hu
    dsimp only at hl ⊢
    cases cfg.rule.stateRhs p x with
    | error e => rfl
    | ok ds =>
      cases cfg.rule.dataRhs p x with
      | error e => rfl
      | ok dd =>
        dsimp only
        unfold Integrand.costateAutodiff
        rcases hq3 : Integrand.lagrangianParams cfg.rule x r.2 s2 with ⟨s3, w⟩
        rw [hq3] at hl
        obtain rfl : w = .ok p := hl
        dsimp only
        show Except.map _ (cfg.rule.costateRhs p x >>= _) = (cfg.rule.costateRhs p x >>= _)
        cases cfg.rule.costateRhs p x <;> rfl

/-- What an evaluation gives. -/
theorem derivatives_result (cfg : Integrand.Cfg T (Trip α) Par (TDicts α) N R H D) (hc : Calm cfg) (t : T) (x : Trip α) {s : Integrand.St T Par N H D × (Nat → R × R)} (h : s.1.external = false) :
    (derivatives cfg t x s).2 = (guards cfg x).bind fun _ => (own cfg s.1 (s.2 0).1 x).bind (outputs cfg x) := by
  unfold derivatives guards
  dsimp only
  rw [Integrand.forward_eq]
  by_cases h1 : cfg.transpose = true ∧ (cfg.rule.nState x ≠ 0 ∨ cfg.rule.nCostate x ≠ 0 ∨ cfg.rule.nData x ≠ 0)
  · rw [if_pos h1, if_pos ⟨h1.1, by tauto⟩]
    rfl
  · rw [if_neg h1, if_neg (by tauto), Integrand.gradients_eq]
    dsimp only
    generalize hg : (if cfg.analytic then Integrand.gradientsAnalytic cfg.rule t x (s.2 0).1 s.1 else Integrand.gradientsAutodiff cfg.rule t x (s.2 0) s.1) = g
    suffices hR : g.2.map (fun o => (o.dotState, o.dotCostate, o.dotData)) =
        (if cfg.analytic = true ∧ (cfg.rule.nState x ≠ 1 ∨ cfg.rule.nCostate x ≠ 1) then (.error .valueError : Py Unit) else .ok ()).bind fun _ => (own cfg s.1 (s.2 0).1 x).bind (outputs cfg x) by
      rcases g with ⟨s', e | o⟩
      · exact hR
      · dsimp only
        rw [runHooks_calm hc.1]
        exact hR
    rw [← hg]
    by_cases ha : cfg.analytic = true
    · rw [if_pos ha]
      by_cases hn : cfg.rule.nState x ≠ 1 ∨ cfg.rule.nCostate x ≠ 1
      · rw [if_pos ⟨ha, hn⟩]
        unfold Integrand.gradientsAnalytic
        rw [if_pos hn]
        rfl
      · rw [if_neg (by tauto)]
        exact analytic_result cfg t x _ h hn
    · rw [if_neg ha, if_neg (by tauto)]
      exact autodiff_result cfg hc t x _ h

theorem derivatives_mode (cfg : Integrand.Cfg T (Trip α) Par (TDicts α) N R H D) (t : T) (x : Trip α) (s : Integrand.St T Par N H D × (Nat → R × R)) :
    (derivatives cfg t x s).1.1.useRnn = s.1.useRnn ∧ (derivatives cfg t x s).1.1.external = s.1.external :=
  ⟨(Integrand.forward_same ..).useRnn, (Integrand.forward_same ..).external⟩

theorem later_mode (cfg : Integrand.Cfg T (Trip α) Par (TDicts α) N R H D) {s s' : Integrand.St T Par N H D × (Nat → R × R)} (h : Later (derivatives cfg) s s') :
    s'.1.useRnn = s.1.useRnn ∧ s'.1.external = s.1.external := by
  induction h with
  | refl => exact ⟨rfl, rfl⟩
  | step t x _ ih => exact ⟨(derivatives_mode ..).1.trans ih.1, (derivatives_mode ..).2.trans ih.2⟩

theorem derivatives_cache (cfg : Integrand.Cfg T (Trip α) Par (TDicts α) N R H D) (t : T) (x : Trip α) {s : Integrand.St T Par N H D × (Nat → R × R)} (h1 : s.1.useRnn = true) (h2 : s.1.external = false) :
    (derivatives cfg t x s).1.1.cache = s.1.cache.or (Integrand.ownParams cfg x (s.2 0)) :=
  (Integrand.forward_rnn cfg t x (s.2 0) h1 h2).1

theorem later_cache (cfg : Integrand.Cfg T (Trip α) Par (TDicts α) N R H D) {s s' : Integrand.St T Par N H D × (Nat → R × R)} (h : Later (derivatives cfg) s s') (h1 : s.1.useRnn = true)
    (h2 : s.1.external = false) {p : Par} (hc : s.1.cache = some p) : s'.1.cache = some p := by
  induction h with
  | refl => exact hc
  | step t x hl ih =>
    obtain ⟨a, b⟩ := later_mode cfg hl
    rw [derivatives_cache cfg t x (a.trans h1) (b.trans h2), ih]
    rfl

/-- The integrand settles. -/
theorem settles (cfg : Integrand.Cfg T (Trip α) Par (TDicts α) N R H D) (hc : Calm cfg) {s0 : Integrand.St T Par N H D × (Nat → R × R)} (h0 : s0.1.external = false) : Settles (derivatives cfg) s0 := by
  intro s hs t x y hy s' hl
  obtain ⟨a, b⟩ := later_mode cfg hs
  have hext := b.trans h0
  obtain ⟨a', b'⟩ := later_mode cfg hl
  obtain ⟨a1, b1⟩ := derivatives_mode cfg t x s
  rw [derivatives_result cfg hc t x hext] at hy
  rw [derivatives_result cfg hc t x (b'.trans (b1.trans hext))]
  cases hg : guards cfg x with
  | error e => rw [hg] at hy; cases hy
  | ok u =>
    rw [hg] at hy
    cases hp : own cfg s.1 (s.2 0).1 x with
    | error e => rw [hp] at hy; cases hy
    | ok p =>
      rw [hp] at hy
      have : own cfg s'.1 (s'.2 0).1 x = .ok p := by
        unfold own at hp ⊢
        rw [a', a1]
        cases hr : s.1.useRnn with
        | false =>
          rw [hr] at hp
          exact (hc.2 _ _ _).trans hp
        | true =>
          have hcache : (derivatives cfg t x s).1.1.cache = some p := by
            rw [derivatives_cache cfg t x hr hext]
            rw [hr] at hp
            cases hca : s.1.cache with
            | some q =>
              rw [hca] at hp
              obtain rfl : q = p := by injection hp
              rfl
            | none =>
              rw [hca] at hp
              show Integrand.ownParams cfg x (s.2 0) = some p
              unfold guards at hg
              unfold Integrand.ownParams
              by_cases h1 : cfg.transpose = true ∧ (cfg.rule.nState x ≠ 0 ∨ cfg.rule.nCostate x ≠ 0 ∨ cfg.rule.nData x ≠ 0)
              · rw [if_pos ⟨h1.1, by tauto⟩] at hg
                cases hg
              · rw [if_neg h1]
                rw [if_neg (by tauto)] at hg
                by_cases h2 : cfg.analytic = true ∧ (cfg.rule.nState x ≠ 1 ∨ cfg.rule.nCostate x ≠ 1)
                · rw [if_pos h2] at hg
                  cases hg
                · rw [if_neg h2]
                  have hp' : cfg.rule.compute (s.2 0).1 x = .ok p := hp
                  rw [hp']
                  rfl
          rw [if_pos rfl, later_cache cfg hl (a1.trans hr) (b1.trans hext) hcache]
          rfl
      rw [this]
      exact hy

/-- Without RNN mode the memory does not matter. -/
theorem derivatives_same (cfg : Integrand.Cfg T (Trip α) Par (TDicts α) N R H D) (hc : Calm cfg) (t : T) (x : Trip α) {s s' : Integrand.St T Par N H D × (Nat → R × R)} (h : s.1.external = false)
    (h' : s'.1.external = false) (hr : s.1.useRnn = false) (hr' : s'.1.useRnn = false) : (derivatives cfg t x s).2 = (derivatives cfg t x s').2 := by
  rw [derivatives_result cfg hc t x h, derivatives_result cfg hc t x h']
  unfold own
  rw [hr, hr']
  rw [hc.2 (s.2 0).1 (s'.2 0).1]
  rfl

end

end Verif.Recompute
