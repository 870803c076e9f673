import Verif.Block.ChainProps
import Verif.Dicts.Props

/-!
# C40: what a block returns when parameters are not concatenated
-/

namespace Verif.Block
open Verif

variable {α T Θ R : Type}

theorem disassembleDict_sorted (input : Assembly.Input α) (dim : Int) (plan : Assembly.Plan) : ∀ (acc : TDict α × Nat) (r : TDict α × Nat), SDict.Sorted acc.1 →
    plan.foldlM (fun (acc : TDict α × Nat) p => do
      let (t, incr') ← Assembly.disassembleEntry input p.2 dim acc.2
      .ok (acc.1.set p.1 t, incr')) acc = (.ok r : Py _) → SDict.Sorted r.1 := by
  induction plan with
  | nil => intro acc r h e; cases e; exact h
  | cons p plan ih =>
    intro acc r h e
    rw [List.foldlM_cons] at e
    cases hd : Assembly.disassembleEntry input p.2 dim acc.2 with
    | error x => rw [hd] at e; cases e
    | ok y =>
      rw [hd] at e
      exact ih _ r (h.set _ _) e

theorem disassembleDicts_sorted (input : Assembly.Input α) (dim : Int) (plans : Assembly.Plans) : ∀ (acc : TDicts α × Nat) (r : TDicts α × Nat),
    Dicts.SortedDicts acc.1 →
    plans.foldlM (fun (acc : TDicts α × Nat) p => do
      let (d, incr') ← Assembly.disassembleDict input p.2 dim acc.2
      .ok (acc.1.set p.1 d, incr')) acc = (.ok r : Py _) → Dicts.SortedDicts r.1 := by
  induction plans with
  | nil => intro acc r h e; cases e; exact h
  | cons p plans ih =>
    intro acc r h e
    rw [List.foldlM_cons] at e
    cases hd : Assembly.disassembleDict input p.2 dim acc.2 with
    | error x => rw [hd] at e; cases e
    | ok y =>
      rw [hd] at e
      refine ih _ r ⟨h.1.set _ _, fun b hb => ?_⟩ e
      have hs := h.1.set p.1 y.1
      have hg := (SDict.get?_eq_some_iff hs).2 (show (b.1, b.2) ∈ SDict.set acc.1 p.1 y.1 from hb)
      rw [SDict.get?_set _ h.1] at hg
      split at hg
      · simp only [Option.some.injEq] at hg
        rw [← hg]
        exact disassembleDict_sorted input dim p.2 ([], acc.2) y SDict.sorted_nil hd
      · exact h.2 _ (SDict.mem_of_get?_eq_some hg)

theorem integrate_sorted (cfg : Cfg α T Θ R) (x0 : List α) (plans : Assembly.AllPlans) (s : St α T Θ) (o : TDicts α × TDicts α × TDicts α)
    (h : integrate cfg x0 plans s = .ok o) : Dicts.SortedDicts o.2.2 := by
  have key : ∀ inp dim, Assembly.disassembleTensor inp (some plans) dim = .ok o → Dicts.SortedDicts o.2.2 := by
    intro inp dim h
    unfold Assembly.disassembleTensor at h
    split at h
    · cases h
    · dsimp only at h
      cases h1 : Assembly.disassembleDicts inp plans.state dim 0 with
      | error e => rw [h1] at h; cases h
      | ok a =>
        cases h2 : Assembly.disassembleDicts inp plans.costate dim a.2 with
        | error e => simp only [h1, h2, bind, Except.bind] at h; cases h
        | ok b =>
          cases h3 : Assembly.disassembleDicts inp plans.data dim b.2 with
          | error e => simp only [h1, h2, h3, bind, Except.bind] at h; cases h
          | ok c =>
            simp only [h1, h2, h3, bind, Except.bind] at h
            cases h
            exact disassembleDicts_sorted inp dim plans.data ([], b.2) c ⟨SDict.sorted_nil, fun _ h => (nomatch h)⟩ h3
  unfold integrate at h
  split at h
  · rename_i v hv
    cases hs : cfg.solve s.theta s.dataDim plans x0 v with
    | error e => rw [hs] at h; cases h
    | ok rows =>
      cases rows with
      | none => rw [hs] at h; cases h
      | some rows =>
        simp only [hs, bind, Except.bind] at h
        exact key _ _ h
  · split at h
    · cases h
    · rename_i t ht
      cases hs : cfg.solve s.theta s.dataDim plans x0 t with
      | error e => rw [hs] at h; cases h
      | ok rows =>
        cases rows with
        | none => rw [hs] at h; cases h
        | some rows =>
          simp only [hs, bind, Except.bind] at h
          split at h
          · cases h
          · exact key _ _ h

/-- C40: without concatenation the first returned value is the part of the returned data that belongs to the output key: the tensor itself if the data have one block, otherwise a dictionary with the blocks
of the data, each holding its entry for that key and nothing else. -/
theorem C40_plain_result [Zero α] (cfg : Cfg α T Θ R) (hc : cfg.concatenate = false) (r : R) (i : Inp α) (s : St α T Θ) (o : Out α) (ho : (forward cfg r i s).2 = .ok o) :
    (∀ b d, o.data = [(b, d)] → ∃ t, SDict.get? d cfg.outKey = some t ∧ o.result = .tensor t) ∧
      (o.data.length ≠ 1 → ∃ res, o.result = .dicts res ∧ SDict.keys res = SDict.keys o.data ∧
        ∀ b m, Dicts.lookup res b m = if m = cfg.outKey then Dicts.lookup o.data b cfg.outKey else none) := by
  unfold forward at ho
  split at ho
  · cases ho
  split at ho
  · cases ho
  split at ho
  · cases ho
  split at ho
  · cases ho
  rename_i s3 x0 plans _
  revert ho
  cases hi : integrate cfg x0 plans s3 with
  | error e => intro h; cases h
  | ok y =>
    have hsd := integrate_sorted cfg x0 plans s3 y hi
    simp only [bind, Except.bind]
    unfold finish
    cases he : Dicts.extractKey y.2.2 cfg.outKey with
    | error e => intro h; cases h
    | ok ex =>
      simp only [bind, Except.bind, hc, Bool.false_eq_true, if_false]
      intro h
      cases h
      dsimp only
      constructor
      · intro b d hd
        rw [hd, Dicts.C50_single_block] at he
        cases hg : SDict.get? d cfg.outKey with
        | none => rw [hg] at he; cases he
        | some t => rw [hg] at he; cases he; exact ⟨t, rfl, rfl⟩
      · intro hl
        obtain ⟨res, h1, h2, h3⟩ := Dicts.C50_several_blocks y.2.2 hsd cfg.outKey hl
        rw [h1] at he
        cases he
        exact ⟨res, rfl, h2, h3⟩

example : ∃ o o', (forward { demo "a" false with enlarge := false } () demoX (demoBlock 1)).2 = .ok o ∧ o.data.length = 1 ∧
    (forward { demo "b" false with enlarge := false } () (passOn o) (demoBlock 1)).2 = .ok o' ∧ o'.data.length = 2 := ⟨_, _, rfl, rfl, rfl, rfl⟩

end Verif.Block
