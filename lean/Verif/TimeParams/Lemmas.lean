import Verif.TimeParams.Spec
import Verif.Integrator.Lemmas

namespace Verif.TimeParams
open Verif

variable {T P : Type} [LinearOrder T]

omit [LinearOrder T] in
theorem pyGet_nat {l : List T} {i : Nat} {x : T} (h : l[i]? = some x) : pyGet l (i : Int) = .ok x := by
  simp [pyGet, h]

omit [LinearOrder T] in
theorem pyGet_last {l : List T} (x : T) (h : l.getLast? = some x) : pyGet l (-1) = .ok x := by
  have hne : l ≠ [] := by rintro rfl; cases h
  have hpos : 0 < l.length := List.length_pos_of_ne_nil hne
  have h1 : ¬ (0 ≤ (-1 : Int)) := by omega
  have h2 : 0 ≤ (-1 : Int) + l.length := by omega
  have h3 : ((-1 : Int) + l.length).toNat = l.length - 1 := by omega
  rw [List.getLast?_eq_getElem?] at h
  simp only [pyGet, h1, if_false, h2, if_true, h3, h]

/-- In an increasing list, the elements `≤ t` are those before the count. -/
theorem filter_le_getElem {times : List T} (h : times.Pairwise (· < ·)) (t : T) (i : Nat) (x : T)
    (hx : times[i]? = some x) : (i < (times.filter (fun y => y ≤ t)).length ↔ x ≤ t) := by
  induction times generalizing i with
  | nil => simp at hx
  | cons y ys ih =>
    have hp := List.pairwise_cons.1 h
    cases i with
    | zero =>
      simp only [List.getElem?_cons_zero, Option.some.injEq] at hx
      subst hx
      by_cases hy : y ≤ t
      · simp [hy]
      · have : ys.filter (fun z => decide (z ≤ t)) = [] := by
          rw [List.filter_eq_nil_iff]
          intro z hz
          simp only [decide_eq_true_eq, not_le]
          exact lt_trans (not_le.1 hy) (hp.1 z hz)
        simp [hy, this]
    | succ i =>
      simp only [List.getElem?_cons_succ] at hx
      have hyx : y < x := hp.1 x (List.mem_of_getElem? hx)
      have := ih hp.2 i hx
      by_cases hy : y ≤ t
      · simp [hy, this]
      · have hxt : ¬ x ≤ t := fun hxt => hy (le_trans (le_of_lt hyx) hxt)
        have hnil : ys.filter (fun z => decide (z ≤ t)) = [] := by
          rw [List.filter_eq_nil_iff]
          intro z hz
          simp only [decide_eq_true_eq, not_le]
          exact lt_trans (not_le.1 hy) (hp.1 z hz)
        simp [hy, hxt, hnil]

theorem filter_lt_getElem {times : List T} (h : times.Pairwise (· < ·)) (t : T) (i : Nat) (x : T)
    (hx : times[i]? = some x) : (i < (times.filter (fun y => y < t)).length ↔ x < t) := by
  induction times generalizing i with
  | nil => simp at hx
  | cons y ys ih =>
    have hp := List.pairwise_cons.1 h
    have hnil : ¬ y < t → ys.filter (fun z => decide (z < t)) = [] := by
      intro hy
      rw [List.filter_eq_nil_iff]
      intro z hz
      simp only [decide_eq_true_eq, not_lt]
      exact le_of_lt (lt_of_le_of_lt (not_lt.1 hy) (hp.1 z hz))
    cases i with
    | zero =>
      simp only [List.getElem?_cons_zero, Option.some.injEq] at hx
      subst hx
      by_cases hy : y < t
      · simp [hy]
      · simp [hy, hnil hy]
    | succ i =>
      simp only [List.getElem?_cons_succ] at hx
      have hyx : y < x := hp.1 x (List.mem_of_getElem? hx)
      have := ih hp.2 i hx
      by_cases hy : y < t
      · simp [hy, this]
      · have hxt : ¬ x < t := fun hxt => hy (lt_trans hyx hxt)
        simp [hy, hxt, hnil hy]

omit [LinearOrder T] in
theorem filter_le_length (p : T → Bool) (times : List T) : (times.filter p).length ≤ times.length :=
  List.length_filter_le _ _

/-- Characterisation of the floor index. -/
theorem floorIdx_eq {times : List T} (h : times.Pairwise (· < ·)) {t : T} {i : Nat} {x : T}
    (hx : times[i]? = some x) (hxt : x ≤ t) (hnext : ∀ y, times[i + 1]? = some y → t < y) :
    floorIdx times t = i := by
  have h1 := (filter_le_getElem h t i x hx).2 hxt
  have h2 : ¬ i + 1 < (times.filter (fun y => decide (y ≤ t))).length := by
    intro hlt
    have hlen := filter_le_length (fun y => decide (y ≤ t)) times
    have hy : times[i + 1]? = some times[i + 1] := List.getElem?_eq_getElem (by omega)
    exact absurd ((filter_le_getElem h t (i + 1) _ hy).1 hlt) (not_le.2 (hnext _ hy))
  unfold floorIdx
  omega

theorem ceilIdx_eq {times : List T} (h : times.Pairwise (· < ·)) {t : T} {i : Nat} {x : T}
    (hx : times[i]? = some x) (hxt : t ≤ x) (hprev : ∀ y, 0 < i → times[i - 1]? = some y → y < t) :
    ceilIdx times t = i := by
  have h1 : ¬ i < (times.filter (fun y => decide (y < t))).length := by
    intro hlt
    exact absurd ((filter_lt_getElem h t i x hx).1 hlt) (not_lt.2 hxt)
  unfold ceilIdx
  by_cases h0 : i = 0
  · omega
  · have hi : i < times.length := (List.getElem?_eq_some_iff.1 hx).1
    have hy : times[i - 1]? = some times[i - 1] := List.getElem?_eq_getElem (by omega)
    have := (filter_lt_getElem h t (i - 1) _ hy).2 (hprev _ (by omega) hy)
    omega

/-- The left search ends at the floor bucket. -/
theorem searchLeft_eq {times : List T} (h : times.Pairwise (· < ·)) (t : T) (i : Nat) (x : T)
    (hx : times[i]? = some x) (hfirst : ∀ y, times[0]? = some y → y ≤ t)
    (hnext : ∀ y, times[i + 1]? = some y → t < y) :
    ∃ y, times[floorIdx times t]? = some y ∧
      searchLeft times t ⟨(i : Int), x⟩ = .ok ⟨(floorIdx times t : Int), y⟩ := by
  induction i generalizing x with
  | zero =>
    have hxt := hfirst x hx
    rw [floorIdx_eq h hx hxt hnext]
    refine ⟨x, hx, ?_⟩
    unfold searchLeft
    simp [not_lt.2 hxt]
  | succ i ih =>
    by_cases hxt : x ≤ t
    · rw [floorIdx_eq h hx hxt hnext]
      refine ⟨x, hx, ?_⟩
      unfold searchLeft
      simp [not_lt.2 hxt]
    · have hlt := not_le.1 hxt
      have hi : i + 1 < times.length := (List.getElem?_eq_some_iff.1 hx).1
      have hy : times[i]? = some times[i] := List.getElem?_eq_getElem (by omega)
      obtain ⟨z, hz, e⟩ := ih _ hy (by
        intro y hy'
        rw [hx] at hy'
        rw [← Option.some.inj hy']; exact hlt)
      refine ⟨z, hz, ?_⟩
      unfold searchLeft
      have hidx : ((i + 1 : Nat) : Int) - 1 = (i : Int) := by omega
      simp only [hlt, if_true, hidx]
      rw [dif_pos (by omega), pyGet_nat hy]
      exact e

/-- The right search ends at the ceiling bucket. -/
theorem searchRight_eq {times : List T} (h : times.Pairwise (· < ·)) (t : T) (n : Nat) (i : Nat) (x : T)
    (hn : i + n + 1 = times.length)
    (hx : times[i]? = some x) (hlast : ∀ y, times.getLast? = some y → t ≤ y)
    (hprev : ∀ y, 0 < i → times[i - 1]? = some y → y < t) :
    ∃ y, times[ceilIdx times t]? = some y ∧
      searchRight times t ⟨(i : Int), x⟩ = .ok ⟨(ceilIdx times t : Int), y⟩ := by
  induction n generalizing i x with
  | zero =>
    have hxt : t ≤ x := hlast x (by
      rw [List.getLast?_eq_getElem?]
      have : times.length - 1 = i := by omega
      rw [this]; exact hx)
    rw [ceilIdx_eq h hx hxt hprev]
    refine ⟨x, hx, ?_⟩
    unfold searchRight
    simp [not_lt.2 hxt]
  | succ n ih =>
    by_cases hxt : t ≤ x
    · rw [ceilIdx_eq h hx hxt hprev]
      refine ⟨x, hx, ?_⟩
      unfold searchRight
      simp [not_lt.2 hxt]
    · have hlt := not_le.1 hxt
      have hy : times[i + 1]? = some times[i + 1] := List.getElem?_eq_getElem (by omega)
      obtain ⟨z, hz, e⟩ := ih (i + 1) _ (by omega) hy (by
        intro y _ hy'
        simp only [Nat.add_sub_cancel] at hy'
        rw [hx] at hy'
        rw [← Option.some.inj hy']; exact hlt)
      refine ⟨z, hz, ?_⟩
      unfold searchRight
      have hidx : (i : Int) + 1 = ((i + 1 : Nat) : Int) := by omega
      simp only [hlt, if_true, hidx]
      rw [dif_pos (by omega), pyGet_nat hy]
      exact e

theorem getAt_eq {tb : Table T P} (hok : TableOk tb) {c : Cache T} (hc : CacheOk tb c) (t : T) :
    ∃ p c', getAt tb c t = .ok (p, c') ∧ tb.params[answerIdx tb c.time t]? = some p ∧ CacheOk tb c' ∧
      (tb.params.length ≠ 1 → c'.idx = answerIdx tb c.time t) := by
  obtain ⟨hinc, hfirst, hbd, hlen⟩ := hok
  obtain ⟨i, hi, hci⟩ := hc
  have hne : tb.times ≠ [] := by intro h; rw [h] at hfirst; cases hfirst
  have hpos : 0 < tb.times.length := List.length_pos_of_ne_nil hne
  have h0 : tb.times[0]? = some tb.minT := by rw [← List.head?_eq_getElem?]; exact hfirst
  obtain ⟨l, hl⟩ : ∃ l, tb.times.getLast? = some l := ⟨_, List.getLast?_eq_some_getLast hne⟩
  have hl' : tb.times[tb.times.length - 1]? = some l := by rw [← List.getLast?_eq_getElem?]; exact hl
  have hmax : ∀ x ∈ tb.times, x ≤ l := by
    intro x hx
    have he := Integrator.endsWith_of_pairwise hinc hne
    rw [List.getLast?_eq_some_getLast hne] at hl
    rw [Option.some.inj hl] at he
    exact he.le x hx
  have hall : (∀ x ∈ tb.times, x ≤ t) ↔ l ≤ t :=
    ⟨fun h => h l (List.mem_of_getElem? hl'), fun h x hx => le_trans (hmax x hx) h⟩
  have hmin : tb.minT ≤ l := hmax _ (List.mem_of_getElem? h0)
  have hparam : ∀ j, j < tb.times.length → ∃ p, tb.params[j]? = some p := fun j hj =>
    ⟨_, List.getElem?_eq_getElem (by omega)⟩
  have hplast : ∀ p, tb.params[tb.times.length - 1]? = some p → tb.params.getLast? = some p := by
    intro p hp; rw [List.getLast?_eq_getElem?, hlen]; exact hp
  have hltlen : ∀ j x, tb.times[j]? = some x → j < tb.times.length := fun j x h =>
    (List.getElem?_eq_some_iff.1 h).1
  unfold getAt
  by_cases h1 : tb.params.length = 1
  · -- a single parameter
    have hn1 : tb.times.length = 1 := by omega
    obtain ⟨p, hp⟩ := hparam 0 hpos
    have hans : answerIdx tb c.time t = 0 := by
      unfold answerIdx
      by_cases h2 : t < tb.minT
      · simp [h2]
      · rw [if_neg h2, if_pos]
        · omega
        · rw [hall]
          have : l = tb.minT := by
            rw [hn1] at hl'
            simp only [Nat.sub_self] at hl'
            rw [h0] at hl'
            exact (Option.some.inj hl').symm
          rw [this]; exact not_lt.1 h2
    refine ⟨p, c, ?_, by rw [hans]; exact hp, ⟨i, hi, hci⟩, fun h => absurd h1 h⟩
    rw [if_pos h1]
    have := pyGet_nat hp
    simp only [Nat.cast_zero] at this
    simp [this, bind, Except.bind]
  · rw [if_neg h1]
    by_cases h2 : t < tb.minT
    · have hans : answerIdx tb c.time t = 0 := by simp [answerIdx, h2]
      obtain ⟨p, hp⟩ := hparam 0 hpos
      refine ⟨p, ⟨0, tb.minT⟩, ?_, by rw [hans]; exact hp, ⟨0, rfl, h0⟩, fun _ => by rw [hans]; rfl⟩
      have hp' := pyGet_nat hp
      have h0' := pyGet_nat h0
      simp only [Nat.cast_zero] at hp' h0'
      simp [h2, hp', h0', bind, Except.bind]
    · rw [if_neg h2]
      by_cases h3 : tb.maxT < t
      · have hle : l ≤ t := le_of_lt (lt_of_le_of_lt (hbd l (List.mem_of_getElem? hl')) h3)
        have hans : answerIdx tb c.time t = tb.times.length - 1 := by
          unfold answerIdx; rw [if_neg h2, if_pos (hall.2 hle)]
        obtain ⟨p, hp⟩ := hparam (tb.times.length - 1) (by omega)
        refine ⟨p, ⟨(tb.params.length : Int) - 1, l⟩, ?_, by rw [hans]; exact hp,
          ⟨tb.times.length - 1, by simp only [hlen]; omega, hl'⟩, fun _ => by simp only [hans, hlen]; omega⟩
        simp [h3, pyGet_last _ (hplast p hp), pyGet_last _ hl, bind, Except.bind]
      · rw [if_neg h3]
        by_cases h4 : t < c.time
        · have hnle : ¬ l ≤ t := fun h =>
            absurd (lt_of_le_of_lt h h4) (not_lt.2 (hmax _ (List.mem_of_getElem? hci)))
          have hans : answerIdx tb c.time t = floorIdx tb.times t := by
            unfold answerIdx; rw [if_neg h2, if_neg (fun h => hnle (hall.1 h)), if_pos h4]
          obtain ⟨y, hy, e⟩ := searchLeft_eq hinc t i c.time hci
            (by intro y hy; rw [h0] at hy; rw [← Option.some.inj hy]; exact not_lt.1 h2)
            (by
              intro y hy
              refine lt_trans h4 ?_
              have hi1 := hltlen _ _ hy
              obtain ⟨h5, h6⟩ := List.getElem?_eq_some_iff.1 hci
              obtain ⟨h7, h8⟩ := List.getElem?_eq_some_iff.1 hy
              rw [← h6, ← h8]
              exact List.pairwise_iff_getElem.1 hinc i (i + 1) h5 h7 (by omega))
          obtain ⟨p, hp⟩ := hparam _ (hltlen _ _ hy)
          refine ⟨p, ⟨(floorIdx tb.times t : Int), y⟩, ?_, by rw [hans]; exact hp, ⟨_, rfl, hy⟩,
            fun _ => by rw [hans]⟩
          have hcc : c = ⟨(i : Int), c.time⟩ := by cases c; simp only at hi; rw [hi]
          rw [if_pos h4, hcc, e]
          simp [pyGet_nat hp, bind, Except.bind]
        · rw [if_neg h4]
          simp only [pyGet_last _ hl, bind, Except.bind]
          by_cases h5 : l ≤ t
          · have hans : answerIdx tb c.time t = tb.times.length - 1 := by
              unfold answerIdx; rw [if_neg h2, if_pos (hall.2 h5)]
            obtain ⟨p, hp⟩ := hparam (tb.times.length - 1) (by omega)
            refine ⟨p, ⟨(tb.params.length : Int) - 1, l⟩, ?_, by rw [hans]; exact hp,
              ⟨tb.times.length - 1, by simp only [hlen]; omega, hl'⟩, fun _ => by simp only [hans, hlen]; omega⟩
            simp [h5, pyGet_last _ (hplast p hp)]
          · have hans : answerIdx tb c.time t = ceilIdx tb.times t := by
              unfold answerIdx; rw [if_neg h2, if_neg (fun h => h5 (hall.1 h)), if_neg h4]
            have hprev : ∀ y, 0 < i → tb.times[i - 1]? = some y → y < c.time := by
              intro y hi0 hy
              obtain ⟨h5, h6⟩ := List.getElem?_eq_some_iff.1 hci
              obtain ⟨h7, h8⟩ := List.getElem?_eq_some_iff.1 hy
              rw [← h6, ← h8]
              exact List.pairwise_iff_getElem.1 hinc (i - 1) i h7 h5 (by omega)
            rw [if_neg h5]
            by_cases h6 : t = c.time
            · have hce : ceilIdx tb.times t = i := by
                refine ceilIdx_eq hinc (by rw [hci]) (le_of_eq h6) ?_
                intro y h0 hy; rw [h6]; exact hprev y h0 hy
              obtain ⟨p, hp⟩ := hparam i (hltlen _ _ hci)
              refine ⟨p, c, ?_, by rw [hans, hce]; exact hp, ⟨i, hi, hci⟩, fun _ => by rw [hans, hce, hi]⟩
              rw [if_pos h6, hi, pyGet_nat hp]
            · rw [if_neg h6]
              have hlt : c.time < t := lt_of_le_of_ne (not_lt.1 h4) (Ne.symm h6)
              have hilen := hltlen _ _ hci
              obtain ⟨y, hy, e⟩ := searchRight_eq hinc t (tb.times.length - i - 1) i c.time (by omega) hci
                (by intro y hy; rw [hl] at hy; rw [← Option.some.inj hy]; exact le_of_lt (not_le.1 h5))
                (fun y h0 hy => lt_trans (hprev y h0 hy) hlt)
              obtain ⟨p, hp⟩ := hparam _ (hltlen _ _ hy)
              refine ⟨p, ⟨(ceilIdx tb.times t : Int), y⟩, ?_, by rw [hans]; exact hp, ⟨_, rfl, hy⟩,
                fun _ => by rw [hans]⟩
              have hcc : c = ⟨(i : Int), c.time⟩ := by cases c; simp only at hi; rw [hi]
              rw [hcc, e]
              simp [pyGet_nat hp]

end Verif.TimeParams
