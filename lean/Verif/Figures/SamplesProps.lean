import Verif.Figures.Samples
import Verif.Figures.Lemmas
import Verif.Figures.Basic
import Verif.Training.Targets
import Mathlib.Data.Rat.Floor

/-!
# C105: the figures of the functional mapping show the samples, the predictions and the particles
-/

namespace Verif.Figures
open Verif Verif.Training

variable {K F : Type}

/-- The two functions, and the range of inputs for which the figure is high enough (C76). -/
def Fits [Field K] [LinearOrder K] (kind : String) (xrange : K) : Prop := kind = "cubic" ∨ kind = "quadratic" ∧ 2 ≤ xrange ^ 2

theorem height_ok [Field K] [LinearOrder K] [IsStrictOrderedRing K] [FloorRing K] {lo hi xrange : K} (hx : 0 < xrange) (h : lo < hi) : ∃ n : Int, 0 < n ∧ figureHeight lo hi xrange = .ok n := by
  have h1 : 0 < 8 * ((hi - lo) / (2 * xrange)) := mul_pos (by norm_num) (div_pos (sub_pos.2 h) (by positivity))
  have h2 : 0 < ⌈8 * ((hi - lo) / (2 * xrange))⌉ := Int.ceil_pos.2 h1
  refine ⟨_, h2, ?_⟩
  rw [figureHeight, if_neg (by positivity), if_neg (by omega)]

/-- The range is not empty, for both functions and all positive ranges of inputs. -/
theorem range_ok [Field K] [LinearOrder K] [IsStrictOrderedRing K] {kind : String} (hk : kind = "cubic" ∨ kind = "quadratic") {xrange : K} (hx : 0 < xrange) : ∃ r, plotRange kind xrange = .ok r ∧ r.1 < r.2 := by
  rcases hk with rfl | rfl
  · refine ⟨_, rfl, ?_⟩
    have : 0 < max |(-xrange) ^ 3| |xrange ^ 3| := lt_max_of_lt_right (abs_pos.2 (by positivity))
    exact neg_lt_self this
  · refine ⟨_, rfl, ?_⟩
    show (9 : K) / 4 < max _ _
    refine lt_max_of_lt_right ?_
    have h1 : 0 < 1 + xrange ^ 2 := by positivity
    rw [abs_of_pos (by positivity)]
    have h2 : xrange ^ 2 + 3 / (1 + xrange ^ 2) - 9 / 4 = ((1 + xrange ^ 2 - 13 / 8) ^ 2 + 23 / 64) / (1 + xrange ^ 2) := by
      field_simp
      ring
    have h3 : 0 < ((1 + xrange ^ 2 - 13 / 8) ^ 2 + 23 / 64) / (1 + xrange ^ 2) := by positivity
    linarith

theorem lines_ok (use : Bool) (q1 : Option (List K)) (hq : ∀ l, q1 = some l → l.length ≠ 1) : particleLines use q1 = .ok (if use then q1.getD [] else []) := by
  cases use with
  | false => rfl
  | true =>
    cases q1 with
    | none => rfl
    | some l =>
      rcases l with _ | ⟨v, _ | ⟨v', l⟩⟩
      · rfl
      · exact absurd rfl (hq _ rfl)
      · rfl

/-- **C105.** A figure of a batch (with the values of the function, and any predictions) has a cross for every sample, a star for every prediction and a line for every particle, and nothing else; all crosses are inside
the axes.  Without particles, or with more than one. -/
theorem C105_figure_partial [Field K] [LinearOrder K] [IsStrictOrderedRing K] [FloorRing K] {kind : String} {xrange : K} (hx : 0 < xrange) (hk : Fits kind xrange) (batch : List (K × K))
    (hb : ∀ s ∈ batch, |s.1| ≤ xrange ∧ fcn kind s.1 = .ok s.2) (preds : List K) (hp : preds.length = batch.length) (use : Bool) (q1 : Option (List K)) (hq : ∀ l, q1 = some l → l.length ≠ 1) :
    ∃ fig, samplesDrawing kind xrange (batch.map Prod.fst) (batch.map Prod.snd) preds use q1 = .ok fig ∧ fig.targets = batch ∧ fig.predictions = (batch.map Prod.fst).zip preds ∧
      fig.lines = (if use then q1.getD [] else []) ∧ 0 < fig.height ∧
      ∀ s ∈ batch, fig.xlim.1 ≤ s.1 ∧ s.1 ≤ fig.xlim.2 ∧ fig.ylim.1 ≤ s.2 ∧ s.2 ≤ fig.ylim.2 := by
  obtain ⟨r, hr, hlt⟩ := range_ok (hk.imp id And.left) hx
  obtain ⟨n, hn, hh⟩ := height_ok hx hlt
  have hl := lines_ok use q1 hq
  have hz : (batch.map Prod.fst).zip (batch.map Prod.snd) = batch := by
    clear hb hp
    induction batch with
    | nil => rfl
    | cons s l ih => simpa using ih
  refine ⟨⟨batch, (batch.map Prod.fst).zip preds, if use then q1.getD [] else [], (-xrange, xrange), r, n⟩, ?_, rfl, rfl, rfl, hn, fun s hs => ?_⟩
  · simp only [samplesDrawing, hr, hh, marks, hl, bind, Except.bind, List.length_map, hp, if_true, hz]
  · obtain ⟨h1, h2⟩ := hb s hs
    refine ⟨(abs_le.1 h1).1, (abs_le.1 h1).2, ?_⟩
    rcases hk with rfl | ⟨rfl, hk⟩
    · obtain ⟨r', e, h3⟩ := C76_plot_cubic xrange s.1 h1
      obtain rfl : r' = r := by rw [e] at hr; exact Except.ok.inj hr
      have : s.1 ^ 3 = s.2 := by simpa [fcn] using h2
      rw [← this]
      exact h3
    · obtain ⟨r', e, h3⟩ := C76_plot_quadratic xrange hx
      obtain rfl : r' = r := by rw [e] at hr; exact Except.ok.inj hr
      have : s.1 ^ 2 + 3 / (1 + s.1 ^ 2) = s.2 := by simpa [fcn] using h2
      rw [← this]
      exact h3.2 hk s.1 h1

/-- **C105 fails for the quadratic function with a small range of inputs**: the figure is drawn, but the sample at zero is above the axes. -/
theorem C105_outside [Field K] [LinearOrder K] [IsStrictOrderedRing K] [FloorRing K] {xrange : K} (hx : 0 < xrange) (h2 : xrange ^ 2 < 2) (ins outs preds : List K) (ho : ins.length = outs.length) (hp : ins.length = preds.length)
    (h0 : ((0 : K), (3 : K)) ∈ ins.zip outs) (use : Bool) (q1 : Option (List K)) (hq : ∀ l, q1 = some l → l.length ≠ 1) :
    fcn "quadratic" (0 : K) = .ok 3 ∧ ∃ fig, samplesDrawing "quadratic" xrange ins outs preds use q1 = .ok fig ∧ (0, 3) ∈ fig.targets ∧ fig.ylim.2 < 3 := by
  refine ⟨by simp [fcn], ?_⟩
  obtain ⟨r, hr, hlt⟩ := range_ok (.inr rfl) hx
  obtain ⟨n, hn, hh⟩ := height_ok hx hlt
  have hl := lines_ok use q1 hq
  refine ⟨⟨ins.zip outs, ins.zip preds, if use then q1.getD [] else [], (-xrange, xrange), r, n⟩, ?_, h0, ?_⟩
  · simp only [samplesDrawing, hr, hh, marks, hl, bind, Except.bind, ho, ← hp, if_true]
  · have e : r = (9 / 4, max |(-xrange) ^ 2 + 3 / (1 + (-xrange) ^ 2)| |xrange ^ 2 + 3 / (1 + xrange ^ 2)|) := (Except.ok.inj hr).symm
    have h1 : 0 < 1 + xrange ^ 2 := by positivity
    have h3 : 0 < xrange ^ 2 := by positivity
    have h4 : 3 - (xrange ^ 2 + 3 / (1 + xrange ^ 2)) = xrange ^ 2 * (2 - xrange ^ 2) / (1 + xrange ^ 2) := by
      field_simp
      ring
    have h5 : 0 < xrange ^ 2 * (2 - xrange ^ 2) / (1 + xrange ^ 2) := div_pos (mul_pos h3 (by linarith)) h1
    rw [e, neg_pow_two, max_self, abs_of_pos (by positivity)]
    show xrange ^ 2 + 3 / (1 + xrange ^ 2) < 3
    linarith

theorem range_le [Field K] [LinearOrder K] [IsStrictOrderedRing K] {kind : String} (hk : kind = "cubic" ∨ kind = "quadratic") (xrange : K) : ∃ r, plotRange kind xrange = .ok r ∧ r.1 ≤ r.2 := by
  rcases hk with rfl | rfl
  · refine ⟨_, rfl, ?_⟩
    have : 0 ≤ max |(-xrange) ^ 3| |xrange ^ 3| := le_max_of_le_right (abs_nonneg _)
    exact neg_le_self this
  · refine ⟨_, rfl, ?_⟩
    show (9 : K) / 4 ≤ max _ _
    refine le_max_of_le_right ?_
    have h1 : 0 < 1 + xrange ^ 2 := by positivity
    rw [abs_of_nonneg (by positivity)]
    have h2 : xrange ^ 2 + 3 / (1 + xrange ^ 2) - 9 / 4 = ((1 + xrange ^ 2 - 13 / 8) ^ 2 + 23 / 64) / (1 + xrange ^ 2) := by
      field_simp
      ring
    have h3 : 0 < ((1 + xrange ^ 2 - 13 / 8) ^ 2 + 23 / 64) / (1 + xrange ^ 2) := by positivity
    linarith

/-- **C105.** With a range of inputs that is not positive no figure can be drawn. -/
theorem C105_range [Field K] [LinearOrder K] [IsStrictOrderedRing K] [FloorRing K] {kind : String} (hk : kind = "cubic" ∨ kind = "quadratic") (xrange : K) (hx : xrange ≤ 0) (ins outs preds : List K) (use : Bool)
    (q1 : Option (List K)) : samplesDrawing kind xrange ins outs preds use q1 = .error (if xrange = 0 then .zeroDivision else .valueError) := by
  obtain ⟨r, hr, hle⟩ := range_le hk xrange
  have hh : figureHeight r.1 r.2 xrange = .error (if xrange = 0 then .zeroDivision else .valueError) := by
    unfold figureHeight
    by_cases h : xrange = 0
    · rw [if_pos (by rw [h, mul_zero]), if_pos h]
    · rw [if_neg (by simpa using h), if_neg h, if_pos]
      refine Int.ceil_le.2 ?_
      have : (r.2 - r.1) / (2 * xrange) ≤ 0 := div_nonpos_of_nonneg_of_nonpos (by linarith) (by linarith)
      push_cast
      linarith
  simp only [samplesDrawing, hr, hh, bind, Except.bind]

/-- **C105 fails for a single particle**: the figure of a block with one particle cannot be drawn.  `show_figure` ends with a `TypeError`, no file is written and nothing is shown; if figures are saved, the settings of `matplotlib`
stay those for saving. -/
theorem C105_one_particle [Field K] [LinearOrder K] [IsStrictOrderedRing K] [FloorRing K] {kind : String} (hk : kind = "cubic" ∨ kind = "quadratic") {xrange : K} (hx : 0 < xrange) (ins outs preds : List K)
    (ho : ins.length = outs.length) (hp : ins.length = preds.length) (v : K) (env : Env) (a : Args) (ha : a.viz = true ∨ a.save = true) (itr : ℕ) (w : World (Samples K)) :
    ∃ w', showFigure env a itr (samplesDrawing kind xrange ins outs preds true (some [v])) w = (w', .error .typeError) ∧ w'.files = w.files ∧ w'.shown = w.shown ∧
      (a.save = true → w'.backend = "pgf" ∧ w'.rc "text.usetex" = .flag true) := by
  obtain ⟨r, hr, hlt⟩ := range_ok hk hx
  obtain ⟨n, hn, hh⟩ := height_ok hx hlt
  have hd : samplesDrawing kind xrange ins outs preds true (some [v]) = .error .typeError := by
    simp only [samplesDrawing, hr, hh, marks, particleLines, bind, Except.bind, ho, ← hp, if_true]
  obtain ⟨viz, save, d, b⟩ := a
  cases save with
  | true => exact ⟨setup w, by rw [hd]; rfl, rfl, rfl, fun _ => ⟨rfl, rfl⟩⟩
  | false =>
    have hv : viz = true := by simpa using ha
    subst hv
    exact ⟨w, by rw [hd]; rfl, rfl, rfl, fun h => by cases h⟩

/-- `show_figure` when nothing fails. -/
theorem show_ok (env : Env) (a : Args) (itr : ℕ) (fig : F) (w : World F) (hw : a.save = true → Writable env a.dir w) :
    ∃ w', showFigure env a itr (.ok fig) w = (w', .ok ()) ∧ (a.save = true → Writable env a.dir w') ∧ w'.backend = w.backend ∧ w'.rc = w.rc ∧ w'.gifs = w.gifs ∧ w'.shown = (if a.viz then w.shown ++ [fig] else w.shown) ∧
      (a.save = true → ∀ f ∈ ["png", "pdf", "pgf"], w'.files.get? (a.dir, a.base ++ "-xcubed-iter-" ++ pad 4 itr ++ "." ++ f) = some fig) ∧
      (∀ p, (a.save = true → ∀ f ∈ ["png", "pdf", "pgf"], p ≠ (a.dir, a.base ++ "-xcubed-iter-" ++ pad 4 itr ++ "." ++ f)) → w'.files.get? p = w.files.get? p) := by
  obtain ⟨viz, save, d, b⟩ := a
  cases save with
  | false => cases viz <;> exact ⟨_, rfl, fun h => (by cases h), rfl, rfl, rfl, rfl, fun h => (by cases h), fun _ _ => rfl⟩
  | true =>
    have hw0 : Writable env d (setup w) := hw rfl
    obtain ⟨w1, a1, a2, _, a4, a5, a6, a7⟩ := saveAll_ok hw0 (b ++ "-xcubed-iter-" ++ pad 4 itr) fig
    have e : saveSamples env ⟨viz, true, d, b⟩ itr (.ok fig) w = (reset (previous w) w1, .ok ()) := by
      unfold saveSamples
      dsimp only
      rw [a1]
      rfl
    have hs : Settings w.backend w.rc (reset (previous w) w1) := by
      have h := saveAll_settings env d (b ++ "-xcubed-iter-" ++ pad 4 itr) fig (setup w) (b := (setup w).backend) (r := (setup w).rc) ⟨rfl, rfl⟩
      rw [a1] at h
      exact reset_setup w w1 h
    cases viz with
    | false => exact ⟨reset (previous w) w1, by simp only [showFigure, e, seq, if_true, Bool.false_eq_true, if_false], fun _ => a2, hs.1, hs.2, a5, a4, fun _ => a6, fun p hp => a7 p (hp rfl)⟩
    | true =>
      refine ⟨{ reset (previous w) w1 with shown := (reset (previous w) w1).shown ++ [fig] }, by simp only [showFigure, e, seq, if_true, viewSamples], fun _ => a2, hs.1, hs.2, a5, ?_, fun _ => a6, fun p hp => a7 p (hp rfl)⟩
      show w1.shown ++ [fig] = w.shown ++ [fig]
      rw [a4]
      rfl

/-- **C105.** What `show_figure` leaves behind when the figure can be drawn and files can be written: with `--save_figures` three files with the number of the iteration, with `--viz` one more figure on the screen; no other file
changes, and the settings are what they were. -/
theorem C105_show (env : Env) (a : Args) (itr : ℕ) (fig : F) (w : World F) (hw : a.save = true → Writable env a.dir w) :
    ∃ w', showFigure env a itr (.ok fig) w = (w', .ok ()) ∧ w'.backend = w.backend ∧ w'.rc = w.rc ∧ w'.gifs = w.gifs ∧ w'.shown = (if a.viz then w.shown ++ [fig] else w.shown) ∧
      (a.save = true → ∀ f ∈ ["png", "pdf", "pgf"], w'.files.get? (a.dir, a.base ++ "-xcubed-iter-" ++ pad 4 itr ++ "." ++ f) = some fig) ∧
      (∀ p, (a.save = true → ∀ f ∈ ["png", "pdf", "pgf"], p ≠ (a.dir, a.base ++ "-xcubed-iter-" ++ pad 4 itr ++ "." ++ f)) → w'.files.get? p = w.files.get? p) :=
  let ⟨w', h1, _, h⟩ := show_ok env a itr fig w hw
  ⟨w', h1, h⟩

/-- The figures of a list of epochs when nothing fails. -/
theorem run_ok (env : Env) (a : Args) (ha : a.viz = true ∨ a.save = true) {freq : Int} (hf : freq ≠ 0) (niters : ℕ) (fig : ℕ → F) (l : List ℕ) (hl : l.Nodup) (w : World F) (hw : a.save = true → Writable env a.dir w) :
    ∃ w', figureRun env a freq niters (fun i => .ok (fig i)) l w = (w', .ok ()) ∧ w'.backend = w.backend ∧ w'.rc = w.rc ∧
      w'.shown = (if a.viz then w.shown ++ (l.filter fun i : ℕ => decide ((i : Int) % freq = 0) || decide (i = niters)).map fig else w.shown) ∧
      (a.save = true → ∀ i ∈ l, ((i : Int) % freq = 0 ∨ i = niters) → ∀ f ∈ formats, w'.files.get? (a.dir, a.base ++ "-xcubed-iter-" ++ pad 4 i ++ "." ++ f) = some (fig i)) ∧
      (∀ p, (a.save = true → ∀ i ∈ l, ((i : Int) % freq = 0 ∨ i = niters) → ∀ f ∈ formats, p ≠ (a.dir, a.base ++ "-xcubed-iter-" ++ pad 4 i ++ "." ++ f)) → w'.files.get? p = w.files.get? p) := by
  have hva : (a.viz || a.save) = true := by simpa using ha
  induction l generalizing w with
  | nil => exact ⟨w, rfl, rfl, rfl, by simp, fun _ _ h => by simp at h, fun _ _ => rfl⟩
  | cons i l ih =>
    obtain ⟨hi, hl⟩ := List.nodup_cons.1 hl
    by_cases hc : (i : Int) % freq = 0 ∨ i = niters
    · have hb : (decide ((i : Int) % freq = 0) || decide (i = niters)) = true := by simpa using hc
      obtain ⟨w1, a1, a2, a3, a4, _, a6, a7, a8⟩ := show_ok env a i (fig i) w hw
      obtain ⟨w2, b1, b2, b3, b4, b5, b6⟩ := ih hl w1 a2
      refine ⟨w2, ?_, b2.trans a3, b3.trans a4, ?_, fun hs k hk hc' f hff => ?_, fun p hp => ?_⟩
      · simp only [figureRun, hva, if_true, figureAt, if_neg hf, hb, a1, seq]
        exact b1
      · rw [b4, a6, List.filter_cons, if_pos hb]
        split_ifs <;> simp
      · rcases List.mem_cons.1 hk with rfl | hk
        · rw [b6 _ fun _ m hm _ f' hf' h => ?_]
          · exact a7 hs f hff
          · have := (file_inj hff hf' (Prod.mk.inj h).2).1
            exact hi (pad_injective 4 this ▸ hm)
        · exact b5 hs k hk hc' f hff
      · rw [b6 p fun hs k hk => hp hs k (List.mem_cons_of_mem _ hk)]
        exact a8 p fun hs => hp hs i List.mem_cons_self hc
    · have hb : (decide ((i : Int) % freq = 0) || decide (i = niters)) = false := by simpa using hc
      obtain ⟨w2, b1, b2, b3, b4, b5, b6⟩ := ih hl w hw
      refine ⟨w2, ?_, b2, b3, ?_, fun hs k hk hc' => ?_, fun p hp => b6 p fun hs k hk => hp hs k (List.mem_cons_of_mem _ hk)⟩
      · simp only [figureRun, hva, if_true, figureAt, if_neg hf, hb]
        exact b1
      · rw [b4, List.filter_cons_of_neg (by simpa using hc)]
      · rcases List.mem_cons.1 hk with rfl | hk
        · exact absurd hc' hc
        · exact b5 hs k hk hc'

/-- **C105.** After a run of `niters` iterations there is a figure of every iteration whose number is a multiple of `--viz_freq` and of the last one, each under its own name; figures on the screen come in the order of the iterations.
No other file changes. -/
theorem C105_run (env : Env) (a : Args) (ha : a.viz = true ∨ a.save = true) {freq : Int} (hf : freq ≠ 0) (niters : ℕ) (fig : ℕ → F) (w : World F) (hw : a.save = true → Writable env a.dir w) :
    ∃ w', figureRun env a freq niters (fun i => .ok (fig i)) (List.range (niters + 1)) w = (w', .ok ()) ∧ w'.backend = w.backend ∧ w'.rc = w.rc ∧
      (∃ epochs : List ℕ, epochs.Pairwise (· < ·) ∧ (∀ i, i ∈ epochs ↔ i ≤ niters ∧ (freq ∣ (i : Int) ∨ i = niters)) ∧ w'.shown = (if a.viz then w.shown ++ epochs.map fig else w.shown)) ∧
      (a.save = true → ∀ i ≤ niters, (freq ∣ (i : Int) ∨ i = niters) → ∀ f ∈ ["png", "pdf", "pgf"], w'.files.get? (a.dir, a.base ++ "-xcubed-iter-" ++ pad 4 i ++ "." ++ f) = some (fig i)) ∧
      (∀ p, (a.save = true → ∀ i ≤ niters, (freq ∣ (i : Int) ∨ i = niters) → ∀ f ∈ ["png", "pdf", "pgf"], p ≠ (a.dir, a.base ++ "-xcubed-iter-" ++ pad 4 i ++ "." ++ f)) → w'.files.get? p = w.files.get? p) := by
  obtain ⟨w', h1, h2, h3, h4, h5, h6⟩ := run_ok env a ha hf niters fig (List.range (niters + 1)) List.nodup_range w hw
  refine ⟨w', h1, h2, h3, ⟨_, List.Pairwise.filter _ List.pairwise_lt_range, fun i => ?_, h4⟩, fun hs i hi hc => h5 hs i (List.mem_range.2 (by omega)) (hc.imp_left Int.emod_eq_zero_of_dvd), fun p hp => h6 p fun hs i hi hc =>
    hp hs i (by have := List.mem_range.1 hi; omega) (hc.imp_left Int.dvd_of_emod_eq_zero)⟩
  rw [List.mem_filter, List.mem_range, Nat.lt_succ_iff, Bool.or_eq_true, decide_eq_true_iff, decide_eq_true_iff, Int.dvd_iff_emod_eq_zero]

/-- **C105.** With `--viz_freq 0` the first figure is an exception. -/
theorem C105_frequency_zero (env : Env) (a : Args) (ha : a.viz = true ∨ a.save = true) (niters : ℕ) (fig : ℕ → Py F) (w : World F) :
    figureRun env a 0 niters fig (List.range (niters + 1)) w = (w, .error .zeroDivision) := by
  have hva : (a.viz || a.save) = true := by simpa using ha
  rw [List.range_succ_eq_map]
  simp only [figureRun, hva, if_true, figureAt]

/-! ## Concrete cases -/

/-- Three samples of the cubic function and two particles. -/
example : ∃ fig, samplesDrawing "cubic" (3 / 2 : ℚ) [-1, 0, 1] [-1, 0, 1] [0, 0, 1] true (some [-1, 1]) = .ok fig ∧ fig.lines = [-1, 1] ∧ fig.predictions = [(-1, 0), (0, 0), (1, 1)] := by
  obtain ⟨fig, h1, _, h3, h4, _⟩ := C105_figure_partial (K := ℚ) (kind := "cubic") (xrange := 3 / 2) (by norm_num) (.inl rfl) [(-1, -1), (0, 0), (1, 1)]
    (by intro s hs; simp only [List.mem_cons, List.not_mem_nil, or_false] at hs; rcases hs with rfl | rfl | rfl <;> exact ⟨by norm_num [abs_le], by norm_num [fcn]⟩)
    [0, 0, 1] rfl true (some [-1, 1]) (by intro l h; cases h; decide)
  exact ⟨fig, h1, h4, h3⟩

/-- A sample of the quadratic function that is cut off. -/
example : ∃ fig, samplesDrawing "quadratic" (1 : ℚ) [0] [3] [2] false none = .ok fig ∧ (0, 3) ∈ fig.targets ∧ fig.ylim.2 < 3 :=
  (C105_outside (K := ℚ) (xrange := 1) (by norm_num) (by norm_num) [0] [3] [2] rfl rfl (by simp) false none nofun).2

/-- A range of zero. -/
example : samplesDrawing "quadratic" (0 : ℚ) [0] [3] [2] false none = .error .zeroDivision := C105_range (.inr rfl) 0 le_rfl [0] [3] [2] false none

example : figureRun demoEnv ⟨true, false, "out", "x"⟩ 0 30 (fun i => .ok i) (List.range 31) demoWorld = (demoWorld, .error .zeroDivision) := C105_frequency_zero demoEnv ⟨true, false, "out", "x"⟩ (.inl rfl) 30 _ demoWorld

/-- One particle at zero. -/
example : ∃ w', showFigure demoEnv ⟨false, true, "out", "x"⟩ 25 (samplesDrawing "cubic" (3 / 2 : ℚ) [0] [0] [1] true (some [0])) demoWorld = (w', .error .typeError) ∧ w'.backend = "pgf" :=
  let ⟨w', h1, _, _, h4⟩ := C105_one_particle (K := ℚ) (kind := "cubic") (.inl rfl) (xrange := 3 / 2) (by norm_num) [0] [0] [1] rfl rfl 0 demoEnv ⟨false, true, "out", "x"⟩ (.inr rfl) 25 demoWorld
  ⟨w', h1, (h4 rfl).1⟩

/-- The names of the files of a run. -/
example : ((figureRun demoEnv ⟨false, true, "out", "x"⟩ 25 30 (fun i => .ok i) (List.range 31) demoWorld).1.files.keys.map Prod.snd) =
    ["x-xcubed-iter-0000.png", "x-xcubed-iter-0000.pdf", "x-xcubed-iter-0000.pgf", "x-xcubed-iter-0025.png", "x-xcubed-iter-0025.pdf", "x-xcubed-iter-0025.pgf",
     "x-xcubed-iter-0030.png", "x-xcubed-iter-0030.pdf", "x-xcubed-iter-0030.pgf"] := by
  decide +kernel

example : ∃ w', figureRun demoEnv ⟨true, true, "out", "x"⟩ 25 30 (fun i => .ok i) (List.range 31) demoWorld = (w', .ok ()) ∧ w'.backend = "agg" :=
  let ⟨w', h1, h2, _⟩ := C105_run demoEnv ⟨true, true, "out", "x"⟩ (.inl rfl) (freq := 25) (by decide) 30 id demoWorld fun _ => ⟨.inr rfl, fun _ => rfl⟩
  ⟨w', h1, h2⟩

end Verif.Figures
