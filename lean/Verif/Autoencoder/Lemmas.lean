import Verif.Autoencoder.Spec
import Mathlib.Tactic.Ring
import Mathlib.Tactic.Linarith
import Mathlib.Tactic.FieldSimp
import Mathlib.Tactic.Positivity

/-!
# Layers of the autoencoder: sizes, samples, biases
-/

namespace Verif.Autoencoder
open Verif

theorem bind_ok {α β : Type} {x : Py α} {f : α → Py β} {b : β} (h : x.bind f = .ok b) : ∃ a, x = .ok a ∧ f a = .ok b := by
  cases x with
  | error e => cases h
  | ok a => exact ⟨a, rfl, h⟩

/-! ## One layer -/

theorem conv_iff {t : Bool} {i o k s p : Nat} {θ : Kernel} {x : Batch} {r : Batch × Layer} :
    (Layer.conv i o k s p θ).apply t x = .ok r ↔ (x.c = i ∧ 0 < x.h ∧ 0 < x.w ∧ k ≤ x.h + 2 * p ∧ k ≤ x.w + 2 * p) ∧
      r = (⟨x.n, o, (x.h + 2 * p - k) / s + 1, (x.w + 2 * p - k) / s + 1, convVal i k s p θ x⟩, .conv i o k s p θ) := by
  rw [Layer.apply, convolve]
  by_cases h : x.c ≠ i ∨ x.h = 0 ∨ x.w = 0 ∨ x.h + 2 * p < k ∨ x.w + 2 * p < k
  · rw [if_pos h]
    constructor
    · intro h; cases h
    · rintro ⟨h', _⟩; omega
  · rw [if_neg h]
    constructor
    · intro e; cases e; exact ⟨by omega, rfl⟩
    · rintro ⟨_, rfl⟩; rfl

theorem convT_iff {t : Bool} {i o k s p q : Nat} {θ : Kernel} {x : Batch} {r : Batch × Layer} :
    (Layer.convT i o k s p q θ).apply t x = .ok r ↔ (x.c = i ∧ 0 < x.h ∧ 0 < x.w ∧ 0 < sizeT k s p q x.h ∧ 0 < sizeT k s p q x.w) ∧
      r = (⟨x.n, o, sizeT k s p q x.h, sizeT k s p q x.w, convTVal i k s p θ x⟩, .convT i o k s p q θ) := by
  rw [Layer.apply, convolveT]
  by_cases h : x.c ≠ i ∨ x.h = 0 ∨ x.w = 0 ∨ sizeT k s p q x.h = 0 ∨ sizeT k s p q x.w = 0
  · rw [if_pos h]
    constructor
    · intro h; cases h
    · rintro ⟨h', _⟩; omega
  · rw [if_neg h]
    constructor
    · intro e; cases e; exact ⟨by omega, rfl⟩
    · rintro ⟨_, rfl⟩; rfl

/-- The statistics used by a batch normalisation. -/
noncomputable def used (t : Bool) (θ : Norm) (x : Batch) : Batch :=
  if t then normalise θ (channelMean x) (fun c => channelSq x c / (x.n * x.h * x.w : Nat)) x else normalise θ θ.mean θ.var x

/-- The batch normalisation afterwards. -/
noncomputable def after (t : Bool) (θ : Norm) (x : Batch) : Norm := if t then θ.next x else θ

theorem norm_iff {t : Bool} {c : Nat} {θ : Norm} {x : Batch} {r : Batch × Layer} :
    (Layer.norm c θ).apply t x = .ok r ↔ (x.c = c ∧ (t = true → x.n * x.h * x.w ≠ 1)) ∧ r = (used t θ x, .norm c (after t θ x)) := by
  rw [Layer.apply, batchNorm, used, after]
  by_cases h : t = true ∧ x.n * x.h * x.w = 1
  · rw [if_pos h]
    constructor
    · intro h; cases h
    · rintro ⟨⟨_, h'⟩, _⟩; exact absurd h.2 (h' h.1)
  · rw [if_neg h]
    by_cases h2 : x.c = c
    · rw [if_neg (by simpa using h2)]
      cases t with
      | true =>
        constructor
        · intro e; cases e; exact ⟨⟨h2, fun _ h3 => h ⟨rfl, h3⟩⟩, rfl⟩
        · rintro ⟨_, rfl⟩; rfl
      | false =>
        constructor
        · intro e; cases e; exact ⟨⟨h2, fun h => by cases h⟩, rfl⟩
        · rintro ⟨_, rfl⟩; rfl
    · rw [if_pos h2]
      constructor
      · intro h; cases h
      · rintro ⟨⟨h', _⟩, _⟩; exact absurd h' h2

theorem used_size (t : Bool) (θ : Norm) (x : Batch) : (used t θ x).n = x.n ∧ (used t θ x).c = x.c ∧ (used t θ x).h = x.h ∧ (used t θ x).w = x.w := by
  unfold used
  cases t <;> exact ⟨rfl, rfl, rfl, rfl⟩

theorem relu_iff {t : Bool} {x : Batch} {r : Batch × Layer} : Layer.relu.apply t x = .ok r ↔ r = (pointwise (fun v => max 0 v) x, .relu) := by
  constructor
  · intro h; cases h; rfl
  · rintro rfl; rfl

theorem sigmoid_iff {t : Bool} {x : Batch} {r : Batch × Layer} : Layer.sigmoid.apply t x = .ok r ↔ r = (pointwise logistic x, .sigmoid) := by
  constructor
  · intro h; cases h; rfl
  · rintro rfl; rfl

theorem seq_nil {t : Bool} {x : Batch} {q : Batch × List Layer} : sequential t [] x = .ok q ↔ q = (x, []) := by
  constructor
  · intro h; cases h; rfl
  · rintro rfl; rfl

theorem seq_cons {t : Bool} {l : Layer} {ls : List Layer} {x : Batch} {q : Batch × List Layer} :
    sequential t (l :: ls) x = .ok q ↔ ∃ r, l.apply t x = .ok r ∧ ∃ q', sequential t ls r.1 = .ok q' ∧ q = (q'.1, r.2 :: q'.2) := by
  constructor
  · intro h
    rw [sequential] at h
    obtain ⟨r, h1, h⟩ := bind_ok h
    obtain ⟨q', h2, h⟩ := bind_ok h
    cases h
    exact ⟨r, h1, q', h2, rfl⟩
  · rintro ⟨r, h1, q', h2, rfl⟩
    simp only [sequential, bind, Except.bind, h1, h2]

/-! ## Encoder and decoder: sizes -/

theorem half (l : Nat) (h : 0 < l) : (l + 2 * 2 - 5) / 2 + 1 = (l + 1) / 2 := by omega

/-- The sizes of a batch. -/
def Sized (x : Batch) (n c h w : Nat) : Prop := x.n = n ∧ x.c = c ∧ x.h = h ∧ x.w = w

/-- What becomes of a batch normalisation: its trainable parameters stay, and everything in evaluation mode; variances stay nonnegative. -/
def Kept (t : Bool) (ν θ : Norm) : Prop := Norm.Same ν θ ∧ (t = false → ν = θ) ∧ ((∀ c, 0 ≤ θ.var c) → ∀ c, 0 ≤ ν.var c)

theorem channelSq_nonneg (x : Batch) (c : Nat) : 0 ≤ channelSq x c := by
  unfold channelSq channelSum
  exact Finset.sum_nonneg fun _ _ => Finset.sum_nonneg fun _ _ => Finset.sum_nonneg fun _ _ => sq_nonneg _

theorem after_kept (t : Bool) (θ : Norm) (x : Batch) (hx : 0 < x.n * x.h * x.w) : Kept t (after t θ x) θ := by
  cases t with
  | false => exact ⟨⟨rfl, rfl⟩, fun _ => rfl, fun h => h⟩
  | true =>
    refine ⟨⟨rfl, rfl⟩, fun h => (by cases h), fun h c => ?_⟩
    have h1 : (1 : ℝ) ≤ ((x.n * x.h * x.w : Nat) : ℝ) := by exact_mod_cast hx
    have h2 : 0 ≤ channelSq x c / (((x.n * x.h * x.w : Nat) : ℝ) - 1) := div_nonneg (channelSq_nonneg x c) (by linarith)
    have h3 := h c
    show 0 ≤ 9 / 10 * θ.var c + 1 / 10 * (channelSq x c / (((x.n * x.h * x.w : Nat) : ℝ) - 1))
    positivity

theorem conv_go {t : Bool} {i o n h w : Nat} {θ : Kernel} {x : Batch} (hx : Sized x n i h w) (hh : 0 < h) (hw : 0 < w) :
    ∃ y, (Layer.conv i o 5 2 2 θ).apply t x = .ok (y, .conv i o 5 2 2 θ) ∧ Sized y n o ((h + 1) / 2) ((w + 1) / 2) := by
  obtain ⟨rfl, rfl, rfl, rfl⟩ := hx
  exact ⟨_, conv_iff.2 ⟨⟨rfl, hh, hw, by omega, by omega⟩, rfl⟩, rfl, rfl, half _ hh, half _ hw⟩

theorem convT_go {t : Bool} {i o k s p q n h w : Nat} {θ : Kernel} {x : Batch} (hx : Sized x n i h w) (hh : 0 < h) (hw : 0 < w) (h1 : 0 < sizeT k s p q h) (h2 : 0 < sizeT k s p q w) :
    ∃ y, (Layer.convT i o k s p q θ).apply t x = .ok (y, .convT i o k s p q θ) ∧ Sized y n o (sizeT k s p q h) (sizeT k s p q w) := by
  obtain ⟨rfl, rfl, rfl, rfl⟩ := hx
  exact ⟨_, convT_iff.2 ⟨⟨rfl, hh, hw, h1, h2⟩, rfl⟩, rfl, rfl, rfl, rfl⟩

theorem norm_go {t : Bool} {c n h w : Nat} {θ : Norm} {x : Batch} (hx : Sized x n c h w) (h0 : 0 < n * h * w) (h1 : t = true → n * h * w ≠ 1) :
    ∃ y ν, (Layer.norm c θ).apply t x = .ok (y, .norm c ν) ∧ Sized y n c h w ∧ Kept t ν θ := by
  obtain ⟨rfl, rfl, rfl, rfl⟩ := hx
  exact ⟨_, _, norm_iff.2 ⟨⟨rfl, h1⟩, rfl⟩, used_size t θ x, after_kept t θ x h0⟩

theorem relu_go {t : Bool} {x : Batch} {n c h w : Nat} (hx : Sized x n c h w) : ∃ y, Layer.relu.apply t x = .ok (y, .relu) ∧ Sized y n c h w := ⟨_, rfl, hx⟩

theorem seq_go {t : Bool} {l l' : Layer} {ls ls' : List Layer} {x y z : Batch} (h1 : l.apply t x = .ok (y, l')) (h2 : sequential t ls y = .ok (z, ls')) : sequential t (l :: ls) x = .ok (z, l' :: ls') :=
  seq_cons.2 ⟨_, h1, _, h2, rfl⟩

theorem encoder_go (t : Bool) (chans f d T : Nat) (θ : Params) {x : Batch} {n h w : Nat} (hx : Sized x n chans h w) (hn : 0 < n) (hh : 0 < h) (hw : 0 < w)
    (h1 : t = true → n * ((h + 1) / 2) * ((w + 1) / 2) ≠ 1) (h2 : t = true → n * ((h + 3) / 4) * ((w + 3) / 4) ≠ 1) :
    ∃ y ν1 ν2, sequential t (Net.new chans f d T θ).encoder x = .ok (y, (Net.new chans f d T { θ with n1 := ν1, n2 := ν2 }).encoder) ∧ Sized y n (f * 4) (eighths h) (eighths w) ∧ Kept t ν1 θ.n1 ∧ Kept t ν2 θ.n2 := by
  obtain ⟨x1, a1, s1⟩ := conv_go (t := t) (o := f) (θ := θ.e1) hx hh hw
  obtain ⟨x2, ν1, a2, s2, k1⟩ := norm_go (t := t) (θ := θ.n1) s1 (Nat.mul_pos (Nat.mul_pos hn (by omega)) (by omega)) h1
  obtain ⟨x3, a3, s3⟩ := relu_go (t := t) s2
  obtain ⟨x4, a4, s4⟩ := conv_go (t := t) (o := f * 2) (θ := θ.e2) s3 (by omega) (by omega)
  rw [show ((h + 1) / 2 + 1) / 2 = (h + 3) / 4 by omega, show ((w + 1) / 2 + 1) / 2 = (w + 3) / 4 by omega] at s4
  obtain ⟨x5, ν2, a5, s5, k2⟩ := norm_go (t := t) (θ := θ.n2) s4 (Nat.mul_pos (Nat.mul_pos hn (by omega)) (by omega)) h2
  obtain ⟨x6, a6, s6⟩ := relu_go (t := t) s5
  obtain ⟨x7, a7, s7⟩ := conv_go (t := t) (o := f * 4) (θ := θ.e3) s6 (by omega) (by omega)
  rw [show ((h + 3) / 4 + 1) / 2 = eighths h by unfold eighths; omega, show ((w + 3) / 4 + 1) / 2 = eighths w by unfold eighths; omega] at s7
  obtain ⟨x8, a8, s8⟩ := relu_go (t := t) s7
  exact ⟨x8, ν1, ν2, seq_go a1 (seq_go a2 (seq_go a3 (seq_go a4 (seq_go a5 (seq_go a6 (seq_go a7 (seq_go a8 (seq_nil.2 rfl)))))))), s8, k1, k2⟩

/-- What an encoder that succeeds was given. -/
theorem encoder_needs {t : Bool} {chans f d T : Nat} {θ : Params} {x : Batch} {q : Batch × List Layer} (h : sequential t (Net.new chans f d T θ).encoder x = .ok q) :
    x.c = chans ∧ 0 < x.h ∧ 0 < x.w ∧ (t = true → x.n * ((x.h + 1) / 2) * ((x.w + 1) / 2) ≠ 1) ∧ (t = true → x.n * ((x.h + 3) / 4) * ((x.w + 3) / 4) ≠ 1) := by
  unfold Net.new at h
  dsimp only at h
  obtain ⟨r1, h1, q1, h, _⟩ := seq_cons.1 h
  obtain ⟨⟨c1, c2, c3, _, _⟩, rfl⟩ := conv_iff.1 h1
  obtain ⟨r2, h2, q2, h, _⟩ := seq_cons.1 h
  obtain ⟨⟨_, c4⟩, rfl⟩ := norm_iff.1 h2
  obtain ⟨r3, h3, q3, h, _⟩ := seq_cons.1 h
  obtain rfl := relu_iff.1 h3
  obtain ⟨r4, h4, q4, h, _⟩ := seq_cons.1 h
  obtain ⟨_, rfl⟩ := conv_iff.1 h4
  obtain ⟨r5, h5, q5, h, _⟩ := seq_cons.1 h
  obtain ⟨⟨_, c5⟩, rfl⟩ := norm_iff.1 h5
  obtain ⟨e1, _, e3, e4⟩ := used_size t θ.n1 ⟨x.n, f, (x.h + 2 * 2 - 5) / 2 + 1, (x.w + 2 * 2 - 5) / 2 + 1, convVal chans 5 2 2 θ.e1 x⟩
  dsimp only [pointwise] at c4 c5 e1 e3 e4
  rw [e1, e3, e4] at c5
  rw [half _ c2, half _ c3] at c4 c5
  rw [half _ (by omega), half _ (by omega)] at c5
  refine ⟨c1, c2, c3, c4, fun ht => ?_⟩
  have := c5 ht
  rwa [show ((x.h + 1) / 2 + 1) / 2 = (x.h + 3) / 4 by omega, show ((x.w + 1) / 2 + 1) / 2 = (x.w + 3) / 4 by omega] at this

theorem decoder_go (t : Bool) (chans f d T : Nat) (θ : Params) {x : Batch} {n : Nat} (hx : Sized x n (f * 4) 4 4) (hn : 0 < n) :
    ∃ y ν1 ν2 ν3, sequential t (Net.new chans f d T θ).decoder x = .ok (y, (Net.new chans f d T { θ with m1 := ν1, m2 := ν2, m3 := ν3 }).decoder) ∧ Sized y n 1 28 28 ∧ Kept t ν1 θ.m1 ∧ Kept t ν2 θ.m2 ∧ Kept t ν3 θ.m3 ∧
      ∀ k c u v, 0 < y.val k c u v ∧ y.val k c u v < 1 := by
  have hf : f * 4 ^ 3 / 16 = f * 4 := by omega
  obtain ⟨x1, a1, s1⟩ := convT_go (t := t) (o := f * 8) (k := 3) (s := 1) (p := 0) (q := 0) (θ := θ.d1) hx (by decide) (by decide) (by decide) (by decide)
  obtain ⟨x2, ν1, a2, s2, k1⟩ := norm_go (t := t) (θ := θ.m1) s1 (by simp only [sizeT]; omega) (by simp only [sizeT]; omega)
  obtain ⟨x3, a3, s3⟩ := relu_go (t := t) s2
  obtain ⟨x4, a4, s4⟩ := convT_go (t := t) (o := f * 4) (k := 5) (s := 2) (p := 1) (q := 0) (θ := θ.d2) s3 (by decide) (by decide) (by decide) (by decide)
  obtain ⟨x5, ν2, a5, s5, k2⟩ := norm_go (t := t) (θ := θ.m2) s4 (by simp only [sizeT]; omega) (by simp only [sizeT]; omega)
  obtain ⟨x6, a6, s6⟩ := relu_go (t := t) s5
  obtain ⟨x7, a7, s7⟩ := convT_go (t := t) (o := f * 2) (k := 5) (s := 2) (p := 1) (q := 1) (θ := θ.d3) s6 (by decide) (by decide) (by decide) (by decide)
  obtain ⟨x8, ν3, a8, s8, k3⟩ := norm_go (t := t) (θ := θ.m3) s7 (by simp only [sizeT]; omega) (by simp only [sizeT]; omega)
  obtain ⟨x9, a9, s9⟩ := relu_go (t := t) s8
  obtain ⟨x10, a10, s10⟩ := convT_go (t := t) (o := 1) (k := 5) (s := 1) (p := 2) (q := 0) (θ := θ.d4) s9 (by decide) (by decide) (by decide) (by decide)
  refine ⟨pointwise logistic x10, ν1, ν2, ν3, ?_, s10, k1, k2, k3, fun k c u v => ?_⟩
  · unfold Net.new
    dsimp only
    rw [hf]
    exact seq_go a1 (seq_go a2 (seq_go a3 (seq_go a4 (seq_go a5 (seq_go a6 (seq_go a7 (seq_go a8 (seq_go a9 (seq_go a10 (seq_go rfl (seq_nil.2 rfl)))))))))))
  · show 0 < logistic _ ∧ logistic _ < 1
    unfold logistic
    have := Real.exp_pos (-(x10.val k c u v))
    refine ⟨by positivity, ?_⟩
    rw [div_lt_one (by linarith)]
    linarith

end Verif.Autoencoder
