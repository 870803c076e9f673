import Verif.Masked.Lemmas
import Mathlib.Tactic.NormNum
import Mathlib.Tactic.Linarith

/-!
# C70: time points left out of training

The specification speaks of the shuffled list of each sample directly: the first `n_skip` entries are left out, the rest is used.
-/

namespace Verif.Masked
open Verif

variable {I L : Type}

/-- C70: whatever the shuffle, the times selected for a sample are increasing, lie in the sequence, never are the evaluation time, are `T - 1 - n_skip` many, and are the ones not left out. -/
theorem C70_selection (T : Nat) (nSkip : Nat) (iEval : Int) (h0 : 0 ≤ iEval) (h1 : iEval < T) (sh : List Int) (hs : sh.Perm (valid T iEval)) :
    (select nSkip iEval sh).Pairwise (· < ·) ∧ (∀ k ∈ select nSkip iEval sh, 0 ≤ k ∧ k < T ∧ k ≠ iEval) ∧
      (select nSkip iEval sh).length = T - 1 - nSkip ∧ ∀ k, k ∈ select nSkip iEval sh ↔ k ∈ sh.drop nSkip := by
  have hn : sh.Nodup := hs.nodup_iff.2 (valid_nodup T iEval)
  have hi : iEval ∉ sh := fun h => ((mem_valid T iEval iEval).1 (hs.mem_iff.1 h)).2.2 rfl
  have hp := select_perm nSkip iEval sh hn hi
  have hc : cut (nSkip : Int) sh = nSkip := by simp [cut]
  rw [hc] at hp
  refine ⟨select_sorted _ _ _ hn, fun k hk => ?_, ?_, fun k => hp.mem_iff⟩
  · exact (mem_valid T iEval k).1 (hs.mem_iff.1 (List.mem_of_mem_drop (hp.mem_iff.1 hk)))
  · rw [hp.length_eq, List.length_drop, hs.length_eq, valid_length_in T iEval h0 h1]

example : [4, 0, 2, 1].Perm (valid 5 3) ∧ select 2 3 [4, 0, 2, 1] = [1, 2] := by decide +kernel

/-- C70: before the shuffle the list holds every time but the evaluation time, once. -/
theorem C70_candidates (T : Nat) (iEval : Int) : (valid T iEval).Nodup ∧ ∀ k, k ∈ valid T iEval ↔ 0 ≤ k ∧ k < T ∧ k ≠ iEval :=
  ⟨valid_nodup T iEval, mem_valid T iEval⟩

section forward
variable (T d : Nat) (nSkip iEval : Int) (dec : List L → List I) (latent : Nat → Nat → L) (shuffles : List (List Int))

theorem rows_ok {α : Type} (f : Nat → Nat → α) (hsh : ∀ sh ∈ shuffles, sh.Perm (valid T iEval)) :
    ((shuffles.map (select nSkip iEval)).zipIdx.mapM fun p => gatherRow T (f p.2) p.1) =
      .ok ((shuffles.map (select nSkip iEval)).zipIdx.map fun p => p.1.map fun k => f p.2 k.toNat) := by
  refine mapM_ok _ _ _ fun p hp => gatherRow_ok _ _ _ fun k hk => ?_
  have hm : p.1 ∈ shuffles.map (select nSkip iEval) := by
    obtain ⟨_, h⟩ := List.mem_zipIdx' hp
    rw [h]
    exact List.getElem_mem _
  obtain ⟨sh, hsh', e⟩ := List.mem_map.1 hm
  rw [← e] at hk
  have hn : sh.Nodup := (hsh sh hsh').nodup_iff.2 (valid_nodup T iEval)
  have hi : iEval ∉ sh := fun h => ((mem_valid T iEval iEval).1 ((hsh sh hsh').mem_iff.1 h)).2.2 rfl
  have := (mem_valid T iEval k).1 ((hsh sh hsh').mem_iff.1 (List.mem_of_mem_drop ((select_perm nSkip iEval sh hn hi).mem_iff.1 hk)))
  exact ⟨this.1, this.2.1⟩

theorem rows_length {α : Type} (f : Nat → Nat → α) (c : Nat) (hc : ∀ sh ∈ shuffles, (select nSkip iEval sh).length = c) :
    ((shuffles.map (select nSkip iEval)).zipIdx.map fun p => p.1.map fun k => f p.2 k.toNat).flatten.length = shuffles.length * c := by
  rw [flatten_length_const c]
  · simp
  · intro x hx
    obtain ⟨p, hp, rfl⟩ := List.mem_map.1 hx
    have hm : p.1 ∈ shuffles.map (select nSkip iEval) := by
      obtain ⟨_, h⟩ := List.mem_zipIdx' hp
      rw [h]
      exact List.getElem_mem _
    obtain ⟨sh, hsh', e⟩ := List.mem_map.1 hm
    rw [List.length_map, ← e, hc sh hsh']

/-- The forward pass with a mask, when it succeeds. -/
theorem forward_ok (hdec : ∀ l, (dec l).length = l.length) (hN : 2 ≤ shuffles.length) (hd : d ≠ 1) (h0 : 0 ≤ iEval) (h1 : iEval < T) (hk : 0 ≤ nSkip) (hkT : nSkip + 1 < T)
    (hsh : ∀ sh ∈ shuffles, sh.Perm (valid T iEval)) :
    forwardMasked T d nSkip iEval dec latent shuffles =
      .ok ((shuffles.map (select nSkip iEval)).zipIdx.map (fun p => p.1.map fun k => latent k.toNat p.2), shuffles.map (select nSkip iEval),
        (List.range shuffles.length).map fun n =>
          ((dec ((shuffles.map (select nSkip iEval)).zipIdx.map fun p => p.1.map fun k => latent k.toNat p.2).flatten).drop (n * (T - (nSkip + 1) : Int).toNat)).take
            (T - (nSkip + 1) : Int).toNat) := by
  have hlen : ∀ sh ∈ shuffles, (select nSkip iEval sh).length = (T - (nSkip + 1) : Int).toNat := by
    intro sh h
    have := (C70_selection T nSkip.toNat iEval h0 h1 sh (hsh sh h)).2.2.1
    rw [Int.toNat_of_nonneg hk] at this
    rw [this]
    omega
  have hsq : squeezable T shuffles.length d = true := by
    unfold squeezable
    simp [hd]
    omega
  have hfl := rows_length nSkip iEval shuffles (fun n t => latent t n) _ hlen
  unfold forwardMasked
  dsimp only
  rw [hsq]
  have hne : (shuffles.map (select nSkip iEval)).isEmpty = false := by
    cases shuffles with
    | nil => simp at hN
    | cons => rfl
  have hany : (shuffles.map (select nSkip iEval)).any List.isEmpty = false := by
    rw [List.any_eq_false]
    intro x hx
    obtain ⟨sh, h, rfl⟩ := List.mem_map.1 hx
    rw [List.isEmpty_iff]
    intro e
    have := hlen sh h
    rw [e] at this
    simp at this
    omega
  simp only [hne, hany, Bool.or_self, Bool.false_eq_true, if_false, Bool.true_eq_false]
  have hr := rows_ok T nSkip iEval shuffles (fun n t => latent t n) hsh
  rw [hr]
  simp only [bind, Except.bind]
  rw [if_pos ⟨by omega, hfl⟩]
  unfold unflatten
  rw [if_pos (by rw [hdec]; exact hfl)]

theorem forward_idx (r : List (List L) × List (List Int) × List (List I)) (h : forwardMasked T d nSkip iEval dec latent shuffles = .ok r) :
    r.2.1 = shuffles.map (select nSkip iEval) := by
  unfold forwardMasked at h
  dsimp only at h
  split at h
  · cases h
  · split at h
    · cases h
    · revert h
      generalize (List.mapM (m := Except Err) _ _ : Except Err (List (List L))) = m
      intro h
      cases m with
      | error e => cases h
      | ok out =>
        simp only [bind, Except.bind] at h
        split at h
        · revert h
          generalize unflatten _ _ _ = u
          intro h
          cases u with
          | error e => cases h
          | ok s => cases h; rfl
        · cases h

theorem full_ok (N : Nat) (hN : N ≠ 1) (hT : T ≠ 1) (hd : d ≠ 1) (g : L → I) :
    forwardFull T d N (List.map g) latent = .ok ((List.range N).map fun n => (List.range T).map fun t => g (latent t n)) := by
  unfold forwardFull squeezable
  simp only [hN, hT, hd, ne_eq, not_false_eq_true, decide_true, Bool.and_self, Bool.true_eq_false, if_false]
  have hl : ∀ x ∈ (List.range N).map (fun n => (List.range T).map fun t => g (latent t n)), x.length = T := by
    intro x hx
    obtain ⟨n, _, rfl⟩ := List.mem_map.1 hx
    simp
  have e : ((List.range N).map fun n => (List.range T).map fun t => latent t n).flatten.map g = ((List.range N).map fun n => (List.range T).map fun t => g (latent t n)).flatten := by
    rw [List.map_flatten, List.map_map]
    congr 1
    refine List.map_congr_left fun n _ => ?_
    simp [Function.comp_def]
  have hlen := flatten_length_const T _ hl
  unfold unflatten
  rw [e, if_pos (by rw [hlen]; simp)]
  have := pieces_flatten T _ hl
  rw [List.length_map, List.length_range] at this
  rw [this]

end forward

/-- C70: a training pass succeeds exactly when the batch has at least two samples, the latent space more than one dimension, the evaluation time is one of the `T` times,
and the number of times left out at random is not negative and leaves at least one time. -/
theorem C70_defined (T d : Nat) (nSkip iEval : Int) (dec : List L → List I) (hdec : ∀ l, (dec l).length = l.length) (latent : Nat → Nat → L) (shuffles : List (List Int))
    (hsh : ∀ sh ∈ shuffles, sh.Perm (valid T iEval)) :
    (∃ r, forwardMasked T d nSkip iEval dec latent shuffles = .ok r) ↔
      2 ≤ shuffles.length ∧ d ≠ 1 ∧ 0 ≤ iEval ∧ iEval < T ∧ 0 ≤ nSkip ∧ nSkip + 1 < T := by
  constructor
  · rintro ⟨r, hr⟩
    unfold forwardMasked at hr
    dsimp only at hr
    by_cases hsq : squeezable T shuffles.length d = false
    · rw [hsq] at hr
      simp at hr
    · simp only [hsq] at hr
      have hsq' : T ≠ 1 ∧ shuffles.length ≠ 1 ∧ d ≠ 1 := by
        have : squeezable T shuffles.length d = true := by simpa using hsq
        unfold squeezable at this
        simpa [and_assoc] using this
      by_cases hE : ((shuffles.map (select nSkip iEval)).isEmpty || (shuffles.map (select nSkip iEval)).any List.isEmpty) = true
      · rw [if_pos hE] at hr
        cases hr
      · have hE' : (shuffles.map (select nSkip iEval)).isEmpty = false ∧ (shuffles.map (select nSkip iEval)).any List.isEmpty = false := by
          simpa only [Bool.not_eq_true, Bool.or_eq_false_iff] using hE
        simp only [hE', Bool.or_self, Bool.false_eq_true, if_false] at hr
        rw [rows_ok T nSkip iEval shuffles (fun n t => latent t n) hsh] at hr
        simp only [bind, Except.bind] at hr
        have hne : 2 ≤ shuffles.length := by
          rcases Nat.lt_or_ge shuffles.length 2 with h | h
          · exfalso
            have : shuffles.length = 0 := by omega
            have := List.length_eq_zero_iff.1 this
            rw [this] at hE'
            simp at hE'
          · exact h
        by_cases hcond : 0 ≤ (T - (nSkip + 1) : Int) ∧ ((shuffles.map (select nSkip iEval)).zipIdx.map fun p => p.1.map fun k => latent k.toNat p.2).flatten.length =
            shuffles.length * (T - (nSkip + 1) : Int).toNat
        · obtain ⟨hM, hflat⟩ := hcond
          have hlen : ∀ sh ∈ shuffles, (select nSkip iEval sh).length = (valid T iEval).length - cut nSkip (valid T iEval) := by
            intro sh h
            have hn : sh.Nodup := (hsh sh h).nodup_iff.2 (valid_nodup T iEval)
            have hi : iEval ∉ sh := fun h' => ((mem_valid T iEval iEval).1 ((hsh sh h).mem_iff.1 h')).2.2 rfl
            rw [select_length _ _ _ hn hi]
            unfold cut
            rw [(hsh sh h).length_eq]
          rw [rows_length nSkip iEval shuffles (fun n t => latent t n) _ hlen] at hflat
          have hflat' := Nat.eq_of_mul_eq_mul_left (by omega) hflat
          have hpos : 0 < (valid T iEval).length - cut nSkip (valid T iEval) := by
            obtain ⟨sh, h⟩ := List.exists_mem_of_length_pos (show 0 < shuffles.length by omega)
            rw [← hlen sh h]
            have := List.any_eq_false.1 hE'.2 _ (List.mem_map_of_mem (f := select nSkip iEval) h)
            rw [List.isEmpty_iff] at this
            exact List.length_pos_iff.2 this
          unfold cut at hflat' hpos
          by_cases hin : 0 ≤ iEval ∧ iEval < T
          · rw [valid_length_in T iEval hin.1 hin.2] at hflat' hpos
            refine ⟨hne, hsq'.2.2, hin.1, hin.2, ?_, ?_⟩ <;> split at hflat' <;> split at hpos <;> omega
          · exfalso
            rw [valid_length_out T iEval hin] at hflat' hpos
            split at hflat' <;> split at hpos <;> omega
        · rw [if_neg hcond] at hr
          cases hr
  · rintro ⟨hN, hd, h0, h1, hk, hkT⟩
    exact ⟨_, forward_ok T d nSkip iEval dec latent shuffles hdec hN hd h0 h1 hk hkT hsh⟩

example : ∃ sh : List (List Int), (∀ s ∈ sh, s.Perm (valid 4 2)) ∧ ∃ r, forwardMasked 4 3 1 2 (fun l : List Nat => l) (fun t n => 10 * n + t) sh = .ok r ∧
    r = ([[0, 1], [10, 13]], [[0, 1], [0, 3]], [[0, 1], [10, 13]]) :=
  ⟨[[3, 0, 1], [1, 3, 0]], by decide +kernel, _, by rfl, by decide +kernel⟩

/-- C70: the training loss.  With a decoder that treats the images one by one, it is the weighted mean over the samples, the times that are not left out and the pixels of the squared difference between the image
at that time and the image decoded at that time. -/
theorem C70_loss (T d nSkip : Nat) (iEval : Int) (enc : (Nat → I) → Nat → Nat → L) (g : L → I) (sq : I → I → ℝ) (pix : Nat) (weight : ℝ) (inp : Nat → Nat → I)
    (shuffles : List (List Int)) (hsh : ∀ sh ∈ shuffles, sh.Perm (valid T iEval)) (hN : 2 ≤ shuffles.length) (hd : d ≠ 1) (h0 : 0 ≤ iEval) (h1 : iEval < T) (hkT : nSkip + 1 < T) :
    simLoss T d nSkip iEval enc (List.map g) sq pix weight inp shuffles = .ok (weight *
      (shuffles.zipIdx.map fun p => ((p.1.drop nSkip).map fun t => sq (inp p.2 t.toNat) (g (enc (fun n => inp n 0) t.toNat p.2))).sum).sum /
        (shuffles.length * (T - (nSkip + 1)) * pix)) := by
  unfold simLoss
  rw [forward_ok T d nSkip iEval (List.map g) _ shuffles (by simp) hN hd h0 h1 (by omega) (by omega) hsh]
  simp only [bind, Except.bind]
  rw [rows_ok T nSkip iEval shuffles inp hsh]
  simp only
  have hlen : ∀ sh ∈ shuffles, (select nSkip iEval sh).length = (T - ((nSkip : Int) + 1)).toNat := by
    intro sh h
    rw [(C70_selection T nSkip iEval h0 h1 sh (hsh sh h)).2.2.1]
    omega
  have hfl := rows_length nSkip iEval shuffles (fun n t => enc (fun n => inp n 0) t n) _ hlen
  rw [flatten_pieces _ _ _ (by rw [List.length_map]; exact hfl), sum_zip, List.zipIdx_map, List.map_map]
  have hsum : (shuffles.zipIdx.map ((fun p : List Int × Nat => (p.1.map fun k => sq (inp p.2 k.toNat) (g (enc (fun n => inp n 0) k.toNat p.2))).sum) ∘
      Prod.map (select nSkip iEval) id)).sum =
      (shuffles.zipIdx.map fun p => ((p.1.drop nSkip).map fun t => sq (inp p.2 t.toNat) (g (enc (fun n => inp n 0) t.toNat p.2))).sum).sum := by
    congr 1
    refine List.map_congr_left fun p hp => ?_
    have hm : p.1 ∈ shuffles := by
      obtain ⟨_, h⟩ := List.mem_zipIdx' hp
      rw [h]
      exact List.getElem_mem _
    have hn : p.1.Nodup := (hsh _ hm).nodup_iff.2 (valid_nodup T iEval)
    have hi : iEval ∉ p.1 := fun h => ((mem_valid T iEval iEval).1 ((hsh _ hm).mem_iff.1 h)).2.2 rfl
    have hp' := select_perm nSkip iEval p.1 hn hi
    have hc : cut (nSkip : Int) p.1 = nSkip := by simp [cut]
    rw [hc] at hp'
    exact (hp'.map _).sum_eq
  rw [hsum]
  push_cast
  rfl

/-- C70: with any decoder (so also with batch normalisation in training mode) the training loss, and whether it exists, depends on the images only through the first image of each sample and the images at
the times that are not left out. -/
theorem C70_uses (T d nSkip : Nat) (iEval : Int) (enc : (Nat → I) → Nat → Nat → L) (dec : List L → List I) (sq : I → I → ℝ) (pix : Nat) (weight : ℝ) (inp inp' : Nat → Nat → I)
    (shuffles : List (List Int)) (hsh : ∀ sh ∈ shuffles, sh.Perm (valid T iEval)) (hfirst : ∀ n, inp n 0 = inp' n 0)
    (hrest : ∀ n sh, shuffles[n]? = some sh → ∀ t ∈ sh.drop nSkip, inp n t.toNat = inp' n t.toNat) :
    simLoss T d nSkip iEval enc dec sq pix weight inp shuffles = simLoss T d nSkip iEval enc dec sq pix weight inp' shuffles := by
  unfold simLoss
  rw [funext hfirst]
  have hr : ((shuffles.map (select nSkip iEval)).zipIdx.map fun p => p.1.map fun k => inp p.2 k.toNat) =
      (shuffles.map (select nSkip iEval)).zipIdx.map fun p => p.1.map fun k => inp' p.2 k.toNat := by
    rw [List.zipIdx_map, List.map_map, List.map_map]
    refine List.map_congr_left fun p hp => List.map_congr_left fun k hk => ?_
    obtain ⟨hlt, h⟩ := List.mem_zipIdx' hp
    have hm : p.1 ∈ shuffles := by
      rw [h]
      exact List.getElem_mem _
    have hn : p.1.Nodup := (hsh _ hm).nodup_iff.2 (valid_nodup T iEval)
    have hi : iEval ∉ p.1 := fun h => ((mem_valid T iEval iEval).1 ((hsh _ hm).mem_iff.1 h)).2.2 rfl
    have hp' := select_perm nSkip iEval p.1 hn hi
    have hc : cut (nSkip : Int) p.1 = nSkip := by simp [cut]
    rw [hc] at hp'
    exact hrest p.2 p.1 (by rw [List.getElem?_eq_getElem hlt, h]) k (hp'.mem_iff.1 hk)
  cases hf : forwardMasked T d nSkip iEval dec (enc fun n => inp' n 0) shuffles with
  | error e => rfl
  | ok r =>
    simp only [bind, Except.bind]
    rw [forward_idx T d nSkip iEval dec _ shuffles r hf, rows_ok T nSkip iEval shuffles inp hsh, rows_ok T nSkip iEval shuffles inp' hsh, hr]

/-- C70: an evaluation time other than the first stays unseen: two data sets that differ only in the images at that time have the same training loss, for every shuffle. -/
theorem C70_held_out_partial (T d nSkip : Nat) (iEval : Nat) (hi : iEval ≠ 0) (enc : (Nat → I) → Nat → Nat → L) (dec : List L → List I) (sq : I → I → ℝ) (pix : Nat) (weight : ℝ)
    (inp inp' : Nat → Nat → I) (shuffles : List (List Int)) (hsh : ∀ sh ∈ shuffles, sh.Perm (valid T iEval)) (hagree : ∀ n t, t ≠ iEval → inp n t = inp' n t) :
    simLoss T d nSkip iEval enc dec sq pix weight inp shuffles = simLoss T d nSkip iEval enc dec sq pix weight inp' shuffles := by
  refine C70_uses T d nSkip iEval enc dec sq pix weight inp inp' shuffles hsh (fun n => hagree n 0 (Ne.symm hi)) fun n sh h t ht => hagree n _ fun e => ?_
  have := (mem_valid T iEval t).1 ((hsh sh (List.mem_of_getElem? h)).mem_iff.1 (List.mem_of_mem_drop ht))
  omega

example : ∃ (inp inp' : Nat → Nat → ℝ), inp ≠ inp' ∧ (∀ n t, t ≠ 2 → inp n t = inp' n t) ∧ ∀ sh ∈ [[3, 0, 1], [1, 3, 0]], sh.Perm (valid 4 2) :=
  ⟨fun _ _ => 0, fun _ t => if t = 2 then 1 else 0, fun h => by simpa using congrFun (congrFun h 0) 2, fun n t h => by simp [h], by decide +kernel⟩

/-- C70: the first time is not left out: `i_eval = 0` is accepted, and the training loss depends on the images at that time, because they are the input of the network. -/
theorem C70_first_time_leaks : ∃ (enc : (Nat → ℝ) → Nat → Nat → ℝ) (inp inp' : Nat → Nat → ℝ) (shuffles : List (List Int)),
    (∀ sh ∈ shuffles, sh.Perm (valid 3 0)) ∧ (∀ n t, t ≠ 0 → inp n t = inp' n t) ∧
      simLoss 3 2 0 0 enc (List.map id) (fun a b => (a - b) ^ 2) 1 1 inp shuffles = .ok 0 ∧
      simLoss 3 2 0 0 enc (List.map id) (fun a b => (a - b) ^ 2) 1 1 inp' shuffles = .ok 1 := by
  have hsh : ∀ sh ∈ [[1, 2], [2, 1]], sh.Perm (valid 3 0) := by decide +kernel
  refine ⟨fun x _ n => x n, fun _ _ => 0, fun _ t => if t = 0 then 1 else 0, [[1, 2], [2, 1]], hsh, fun n t h => by simp [h], ?_, ?_⟩
  · have := C70_loss 3 2 0 0 (fun x _ n => x n) id (fun a b : ℝ => (a - b) ^ 2) 1 1 (fun _ _ => 0) [[1, 2], [2, 1]] hsh (by decide) (by decide) (by decide) (by decide) (by decide)
    refine this.trans (congrArg _ ?_)
    norm_num
  · have := C70_loss 3 2 0 0 (fun x _ n => x n) id (fun a b : ℝ => (a - b) ^ 2) 1 1 (fun _ t => if t = 0 then 1 else 0) [[1, 2], [2, 1]] hsh (by decide) (by decide) (by decide) (by decide)
      (by decide)
    refine this.trans (congrArg _ ?_)
    norm_num

/-- C70: what `evaluate` reports for a batch: for each sample the mean squared difference at the evaluation time. -/
theorem C70_evaluate (T d N iEval : Nat) (hN : N ≠ 1) (hT : T ≠ 1) (hd : d ≠ 1) (hi : iEval < T) (enc : (Nat → I) → Nat → Nat → L) (g : L → I) (sq : I → I → ℝ) (pix : Nat) (inp : Nat → Nat → I) :
    evalBatch T d N iEval enc (List.map g) sq pix inp =
      .ok ((List.range N).map fun n => sq (g (enc (fun n => inp n 0) iEval n)) (inp n iEval) / pix) := by
  unfold evalBatch
  rw [full_ok T d _ N hN hT hd g]
  simp only [bind, Except.bind]
  rw [zipIdx_range, mapM_ok _ fun p : List I × Nat => sq (g (enc (fun n => inp n 0) iEval p.2)) (inp p.2 iEval) / pix]
  · rw [List.map_map]
    rfl
  · intro p hp
    obtain ⟨n, hn, rfl⟩ := List.mem_map.1 hp
    have e1 : pyIndex T (fun t => ((List.range T).map fun t => g (enc (fun n => inp n 0) t n))[t]?) (iEval : Int) = .ok (some (g (enc (fun n => inp n 0) iEval n))) := by
      unfold pyIndex
      rw [if_pos ⟨by omega, by omega⟩]
      simp [hi]
    have e2 : pyIndex T (inp n) (iEval : Int) = .ok (inp n iEval) := by
      unfold pyIndex
      rw [if_pos ⟨by omega, by omega⟩]
      simp
    dsimp only
    rw [e1, e2]
    rfl

/-- C70: a last batch of a single sample cannot be evaluated (nor trained on, see `C70_defined`). -/
theorem C70_single_sample (T d : Nat) (iEval : Int) (enc : (Nat → I) → Nat → Nat → L) (dec : List L → List I) (sq : I → I → ℝ) (pix : Nat) (inp : Nat → Nat → I) :
    evalBatch T d 1 iEval enc dec sq pix inp = .error .runtimeError := by
  unfold evalBatch forwardFull squeezable
  simp [bind, Except.bind]

/-! ## The mode of the network -/

theorem rot_mode_false (T : Nat) (nSkip iEval : Int) (es : List Epoch) : ∀ (k : Nat) (cs : List Call), (trainLoop (rotEpoch T nSkip iEval) false es)[k]? = some cs → ∀ c ∈ cs, c.training = false := by
  induction es with
  | nil => intro k cs h; simp [trainLoop] at h
  | cons e es ih =>
    intro k cs h
    cases k with
    | zero =>
      simp only [trainLoop, List.getElem?_cons_zero, Option.some.injEq] at h
      subst h
      intro c hc
      simp only [rotEpoch, List.mem_append, List.mem_map] at hc
      rcases hc with ⟨_, _, rfl⟩ | ⟨_, _, rfl⟩ <;> rfl
    | succ k =>
      simp only [trainLoop, List.getElem?_cons_succ] at h
      exact ih k cs h

/-- C70: in `rot.py` the network is in training mode during the first epoch only: from the second epoch on the batches are decoded (and the parameters updated) in evaluation mode, where batch normalisation
uses, and no longer updates, the statistics of the first epoch. -/
theorem C70_mode_rot (T : Nat) (nSkip iEval : Int) (es : List Epoch) (k : Nat) (e : Epoch) (cs : List Call) (he : es[k]? = some e)
    (hc : (trainLoop (rotEpoch T nSkip iEval) true es)[k]? = some cs) : ∀ c ∈ cs.take e.1.length, c.training = decide (k = 0) := by
  cases es with
  | nil => simp at he
  | cons e0 es =>
    cases k with
    | zero =>
      simp only [List.getElem?_cons_zero, Option.some.injEq] at he
      simp only [trainLoop, List.getElem?_cons_zero, Option.some.injEq] at hc
      subst he hc
      intro c hc
      simp only [rotEpoch] at hc
      rw [List.take_left' (by simp)] at hc
      obtain ⟨_, _, rfl⟩ := List.mem_map.1 hc
      rfl
    | succ k =>
      intro c hm
      simp only [trainLoop, List.getElem?_cons_succ] at hc
      rw [rot_mode_false T nSkip iEval es k cs hc c (List.mem_of_mem_take hm)]
      simp

example : trainLoop (rotEpoch 3 0 1) true [([[[2, 0]]], [1]), ([[[0, 2]]], [])] = [[⟨true, [[0, 2]]⟩, ⟨false, [[0, 1, 2]]⟩], [⟨false, [[0, 2]]⟩]] := by decide +kernel

/-- C70: in `balls.py` every training batch is decoded in training mode. -/
theorem C70_mode_balls (T : Nat) (es : List Epoch) : ∀ (mode : Bool) (k : Nat) (e : Epoch) (cs : List Call), es[k]? = some e → (trainLoop (ballsEpoch T) mode es)[k]? = some cs →
    ∀ c ∈ cs.take e.1.length, c.training = true := by
  induction es with
  | nil => intro _ k e cs h; simp at h
  | cons e0 es ih =>
    intro mode k e cs he hc
    cases k with
    | zero =>
      simp only [List.getElem?_cons_zero, Option.some.injEq] at he
      simp only [trainLoop, List.getElem?_cons_zero, Option.some.injEq] at hc
      subst he hc
      intro c hc
      simp only [ballsEpoch] at hc
      rw [List.take_left' (by simp)] at hc
      obtain ⟨_, _, rfl⟩ := List.mem_map.1 hc
      rfl
    | succ k =>
      simp only [trainLoop, List.getElem?_cons_succ] at hc
      exact ih _ k e cs he hc

/-- C70: the statistics of batch normalisation never see the evaluation time: whenever the decoder runs in training mode, that time is not among the decoded ones. -/
theorem C70_statistics (T : Nat) (nSkip iEval : Int) (es : List Epoch) (hsh : ∀ e ∈ es, ∀ b ∈ e.1, ∀ sh ∈ b, sh.Perm (valid T iEval)) (k : Nat) (cs : List Call)
    (hc : (trainLoop (rotEpoch T nSkip iEval) true es)[k]? = some cs) : ∀ c ∈ cs, c.training = true → ∀ row ∈ c.times, iEval ∉ row := by
  cases es with
  | nil => simp [trainLoop] at hc
  | cons e0 es =>
    cases k with
    | zero =>
      simp only [trainLoop, List.getElem?_cons_zero, Option.some.injEq] at hc
      subst hc
      intro c hc ht row hrow
      simp only [rotEpoch, List.mem_append, List.mem_map] at hc
      rcases hc with ⟨b, hb, rfl⟩ | ⟨_, _, rfl⟩
      · obtain ⟨sh, hs, rfl⟩ := List.mem_map.1 hrow
        have hp := hsh e0 (by simp) b hb sh hs
        have hn : sh.Nodup := hp.nodup_iff.2 (valid_nodup T iEval)
        have hi : iEval ∉ sh := fun h => ((mem_valid T iEval iEval).1 (hp.mem_iff.1 h)).2.2 rfl
        exact fun h => hi (List.mem_of_mem_drop ((select_perm nSkip iEval sh hn hi).mem_iff.1 h))
      · cases ht
    | succ k =>
      intro c hm ht
      simp only [trainLoop, List.getElem?_cons_succ] at hc
      rw [rot_mode_false T nSkip iEval es k cs hc c hm] at ht
      cases ht

end Verif.Masked
