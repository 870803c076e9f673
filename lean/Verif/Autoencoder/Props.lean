import Verif.Autoencoder.Lemmas
import Verif.Rotated.Props

/-!
# C108: the autoencoder
-/

namespace Verif.Autoencoder
open Verif

theorem apply_n {t : Bool} {l : Layer} {x : Batch} {r : Batch × Layer} (h : l.apply t x = .ok r) : r.1.n = x.n := by
  cases l with
  | conv => obtain ⟨_, rfl⟩ := conv_iff.1 h; rfl
  | convT => obtain ⟨_, rfl⟩ := convT_iff.1 h; rfl
  | norm => obtain ⟨_, rfl⟩ := norm_iff.1 h; exact (used_size t _ x).1
  | relu => obtain rfl := relu_iff.1 h; rfl
  | sigmoid => obtain rfl := sigmoid_iff.1 h; rfl

theorem seq_n {t : Bool} {ls : List Layer} {x : Batch} {q : Batch × List Layer} (h : sequential t ls x = .ok q) : q.1.n = x.n := by
  induction ls generalizing x q with
  | nil => obtain rfl := seq_nil.1 h; rfl
  | cons l ls ih =>
    obtain ⟨r, h1, q', h2, rfl⟩ := seq_cons.1 h
    exact (ih h2).trans (apply_n h1)

theorem eighths_pos {l : Nat} (h : eighths l ≠ 0) : 0 < l := by unfold eighths at h; omega

theorem fitting_pos {chans : Nat} {x : Batch} (h : Fitting chans x) : 0 < x.h ∧ 0 < x.w :=
  ⟨eighths_pos fun e => by have := h.2; simp [e] at this, eighths_pos fun e => by have := h.2; simp [e] at this⟩

theorem not_one {n a b : Nat} (h : n * a * b = 1) : a = 1 ∧ b = 1 :=
  ⟨Nat.eq_one_of_mul_eq_one_left (Nat.eq_one_of_mul_eq_one_right h), Nat.eq_one_of_mul_eq_one_left h⟩

theorem fitting_big {chans : Nat} {x : Batch} (h : Fitting chans x) :
    x.n * ((x.h + 1) / 2) * ((x.w + 1) / 2) ≠ 1 ∧ x.n * ((x.h + 3) / 4) * ((x.w + 3) / 4) ≠ 1 := by
  have key : x.h ≤ 4 → x.w ≤ 4 → False := fun h1 h2 => by
    have := h.2
    have e1 : eighths x.h ≤ 1 := by unfold eighths; omega
    have e2 : eighths x.w ≤ 1 := by unfold eighths; omega
    have := Nat.mul_le_mul e1 e2
    omega
  exact ⟨fun e => key (by have := (not_one e).1; omega) (by have := (not_one e).2; omega), fun e => key (by have := (not_one e).1; omega) (by have := (not_one e).2; omega)⟩

theorem linear_go {i o : Nat} {θ : Linear} {v : Vecs} (h : v.d = i) : linear i o θ v = .ok ⟨v.n, o, fun n j => θ.bias j + ∑ a ∈ Finset.range i, θ.weight j a * v.val n a⟩ := by
  rw [linear, if_neg (by simpa using h)]

theorem encode_go (t : Bool) {chans f d T : Nat} (θ : Params) {x : Batch} (hn : 0 < x.n) (hx : Fitting chans x) :
    ∃ e ν1 ν2, encode t (Net.new chans f d T θ) x = .ok (e, Net.new chans f d T { θ with n1 := ν1, n2 := ν2 }) ∧ e.n = x.n ∧ e.d = d ∧ Kept t ν1 θ.n1 ∧ Kept t ν2 θ.n2 := by
  obtain ⟨p1, p2⟩ := fitting_pos hx
  obtain ⟨y, ν1, ν2, g1, ⟨s1, s2, s3, s4⟩, k1, k2⟩ := encoder_go t chans f d T θ (x := x) ⟨rfl, hx.1, rfl, rfl⟩ hn p1 p2 (fun _ => (fitting_big hx).1) fun _ => (fitting_big hx).2
  obtain ⟨v, h1, h2, h3⟩ : ∃ v, flatten y = .ok v ∧ v.n = x.n ∧ v.d = f * 4 ^ 3 := by
    refine ⟨_, by rw [flatten, if_neg (by omega)], s1, ?_⟩
    show y.c * y.h * y.w = _
    rw [s2, s3, s4, Nat.mul_assoc, hx.2]
    omega
  obtain ⟨e, h4, h5, h6⟩ : ∃ e, linear (f * 4 ^ 3) d θ.f1 v = .ok e ∧ e.n = x.n ∧ e.d = d := ⟨_, linear_go h3, h2, rfl⟩
  refine ⟨e, ν1, ν2, ?_, h5, h6, k1, k2⟩
  have h7 : linear (Net.new chans f d T θ).hDim (Net.new chans f d T θ).d (Net.new chans f d T θ).fc1 v = .ok e := h4
  simp only [encode, bind, Except.bind, g1, h1, h7]
  rfl

theorem decode_go (t : Bool) {chans f d T : Nat} (θ : Params) {s : Vecs} (hn : 0 < s.n) (hd : s.d = d) :
    ∃ y ν1 ν2 ν3, decode t (Net.new chans f d T θ) s = .ok (y, Net.new chans f d T { θ with m1 := ν1, m2 := ν2, m3 := ν3 }) ∧ Sized y s.n 1 28 28 ∧ Kept t ν1 θ.m1 ∧ Kept t ν2 θ.m2 ∧ Kept t ν3 θ.m3 ∧
      ∀ k c u v, 0 < y.val k c u v ∧ y.val k c u v < 1 := by
  obtain ⟨v, h1, h2, h3⟩ : ∃ v, linear d (f * 4 ^ 3) θ.f2 s = .ok v ∧ v.n = s.n ∧ v.d = f * 4 ^ 3 := by
    refine ⟨_, linear_go hd, ?_, ?_⟩ <;> rfl
  obtain ⟨x, h4, h5⟩ : ∃ x, unflatten 4 v = .ok x ∧ Sized x s.n (f * 4) 4 4 := by
    refine ⟨_, by rw [unflatten, if_neg (by omega), if_neg (by omega)], h2, ?_, rfl, rfl⟩
    show v.d / 4 ^ 2 = f * 4
    omega
  obtain ⟨y, ν1, ν2, ν3, g, k⟩ := decoder_go t chans f d T θ h5 hn
  refine ⟨y, ν1, ν2, ν3, ?_, k⟩
  have h7 : linear (Net.new chans f d T θ).d (Net.new chans f d T θ).hDim (Net.new chans f d T θ).fc2 s = .ok v := h1
  simp only [decode, bind, Except.bind, h7, h4, g]
  rfl

/-- C108: in both modes and for all parameters, a batch of images can be encoded exactly if it is not empty, has the right number of channels and needs 16 blocks of 8 by 8 pixels to be covered. -/
theorem C108_encoder (t : Bool) {chans f d T : Nat} (hf : 0 < f) (θ : Params) (x : Batch) : (∃ r, encode t (Net.new chans f d T θ) x = .ok r) ↔ 0 < x.n ∧ Fitting chans x := by
  constructor
  · rintro ⟨r, h⟩
    obtain ⟨q, h1, h⟩ := bind_ok h
    obtain ⟨v, h2, h⟩ := bind_ok h
    obtain ⟨e, h3, h⟩ := bind_ok h
    obtain ⟨c1, c2, c3, c4, c5⟩ := encoder_needs h1
    have hn : 0 < x.n := by
      rw [← seq_n h1]
      refine Nat.pos_of_ne_zero fun e => ?_
      rw [flatten, if_pos e] at h2
      cases h2
    refine ⟨hn, c1, ?_⟩
    obtain ⟨y, ν1, ν2, g1, ⟨s1, s2, s3, s4⟩, _⟩ := encoder_go t chans f d T θ (x := x) ⟨rfl, c1, rfl, rfl⟩ hn c2 c3 c4 c5
    rw [g1] at h1
    cases h1
    rw [flatten, if_neg (by dsimp only; omega)] at h2
    cases h2
    unfold linear at h3
    split at h3
    · cases h3
    · rename_i hd
      simp only [Net.new, s2, s3, s4, not_not] at hd
      have : f * 4 * (eighths x.h * eighths x.w) = f * 4 * 16 := by rw [← Nat.mul_assoc, hd]; omega
      exact Nat.eq_of_mul_eq_mul_left (by omega) this
  · rintro ⟨hn, hx⟩
    obtain ⟨e, ν1, ν2, h, _⟩ := encode_go t (f := f) (d := d) (T := T) θ hn hx
    exact ⟨_, h⟩

/-- C108: in both modes and for all parameters, every nonempty list of latent values of the right dimension is decoded, to one image of 28 by 28 pixels with one channel per value; all pixels are strictly between 0 and 1. -/
theorem C108_decoder (t : Bool) {chans f d T : Nat} (θ : Params) (s : Vecs) (hn : 0 < s.n) (hd : s.d = d) :
    ∃ y a, decode t (Net.new chans f d T θ) s = .ok (y, a) ∧ y.n = s.n ∧ y.c = 1 ∧ y.h = 28 ∧ y.w = 28 ∧ ∀ k c u v, 0 < y.val k c u v ∧ y.val k c u v < 1 := by
  obtain ⟨y, ν1, ν2, ν3, h, ⟨h1, h2, h3, h4⟩, _, _, _, h5⟩ := decode_go t (chans := chans) (f := f) (T := T) θ hn hd
  exact ⟨y, _, h, h1, h2, h3, h4, h5⟩

theorem rows_iff {T d N T' : Nat} {out : Nat → Nat → Nat → ℝ} {s : Vecs} (hN : 0 < N) (hd : 0 < d) : rows T d N T' out = .ok s ↔ (T' ≠ 1 ∧ N ≠ 1 ∧ d ≠ 1 ∧ T' = T) ∧ s = ⟨N * T, d, fun r j => out (r % T) (r / T) j⟩ := by
  unfold rows
  by_cases h : Masked.squeezable T' N d = false
  · rw [if_pos h]
    refine ⟨fun h => (by cases h), fun ⟨⟨h1, h2, h3, _⟩, _⟩ => ?_⟩
    simp [Masked.squeezable, h1, h2, h3] at h
  · rw [if_neg h]
    have h' : T' ≠ 1 ∧ N ≠ 1 ∧ d ≠ 1 := by simpa [Masked.squeezable, and_assoc] using h
    have e : N * T' * d = N * T * d ↔ T' = T := ⟨fun h => Nat.eq_of_mul_eq_mul_left hN (Nat.eq_of_mul_eq_mul_right hd h), fun h => by rw [h]⟩
    by_cases h2 : T' = T
    · rw [if_neg fun h => h (e.2 h2)]
      refine ⟨fun h => ?_, fun ⟨_, h⟩ => by rw [h]⟩
      cases h
      exact ⟨⟨h'.1, h'.2.1, h'.2.2, h2⟩, rfl⟩
    · rw [if_pos fun h => h2 (e.1 h)]
      exact ⟨fun h => (by cases h), fun ⟨⟨_, _, _, h⟩, _⟩ => absurd h h2⟩

theorem sequences_go {N T : Nat} {s : Batch} (hs : Sized s (N * T) 1 28 28) :
    ∃ q, sequences N T s = .ok q ∧ q.n = N ∧ q.t = T ∧ ∀ n t y z, y < 28 → z < 28 → q.val n t y z = s.val (n * T + t) 0 y z := by
  obtain ⟨h1, h2, h3, h4⟩ := hs
  refine ⟨_, by rw [sequences, if_neg (by rw [h1, h2, h3, h4]; omega)], rfl, rfl, fun n t y z hy hz => ?_⟩
  dsimp only
  rw [h2, h3, h4]
  generalize n * T + t = r
  congr 1 <;> omega

theorem forward_go (t : Bool) {chans f d T : Nat} (hd : 2 ≤ d) (hT : 2 ≤ T) (θ : Params) {blk : Blk} (hb : ∀ v, ∃ out, blk v = .ok (T, out)) {x : Batch} (hx : Fitting chans x) (hn : 2 ≤ x.n) :
    ∃ q θ', forward t blk (Net.new chans f d T θ) x = .ok (q, Net.new chans f d T θ') ∧ q.n = x.n ∧ q.t = T ∧ (∀ n k y z, y < 28 → z < 28 → 0 < q.val n k y z ∧ q.val n k y z < 1) ∧ Params.Same θ θ' ∧ (t = false → θ' = θ) ∧
      (Params.Sound θ → Params.Sound θ') := by
  obtain ⟨e, ν1, ν2, g1, _, _, k1, k2⟩ := encode_go t (f := f) (d := d) (T := T) θ (by omega) hx
  obtain ⟨out, g2⟩ := hb e
  have g3 : rows (Net.new chans f d T θ).T (Net.new chans f d T θ).d x.n T out = .ok ⟨x.n * T, d, fun r j => out (r % T) (r / T) j⟩ := by
    show rows T d x.n T out = _
    exact (rows_iff (by omega) (by omega)).2 ⟨⟨by omega, by omega, by omega, rfl⟩, rfl⟩
  obtain ⟨y, μ1, μ2, μ3, g4, g5, k3, k4, k5, g7⟩ :=
    decode_go t (chans := chans) (f := f) (d := d) (T := T) { θ with n1 := ν1, n2 := ν2 } (s := ⟨x.n * T, d, fun r j => out (r % T) (r / T) j⟩) (Nat.mul_pos (by omega) (by omega)) rfl
  obtain ⟨q, g6, q1, q2, q3⟩ := sequences_go g5
  have g6' : sequences x.n (Net.new chans f d T θ).T y = .ok q := g6
  refine ⟨q, { θ with n1 := ν1, n2 := ν2, m1 := μ1, m2 := μ2, m3 := μ3 }, ?_, q1, q2, fun n k u v hu hv => ?_, ?_, fun ht => ?_, fun hs => ?_⟩
  · simp only [forward, bind, Except.bind, g1, g2, g3, g4, g6']
  · rw [q3 n k u v hu hv]
    exact g7 _ _ _ _
  · exact ⟨rfl, rfl, rfl, rfl, rfl, rfl, rfl, rfl, rfl, k1.1, k2.1, k3.1, k4.1, k5.1⟩
  · rw [k1.2.1 ht, k2.2.1 ht, k3.2.1 ht, k4.2.1 ht, k5.2.1 ht]
  · intro ν hν
    simp only [List.mem_cons, List.not_mem_nil, or_false] at hν
    rcases hν with rfl | rfl | rfl | rfl | rfl
    · exact k1.2.2 (hs _ (by simp))
    · exact k2.2.2 (hs _ (by simp))
    · exact k3.2.2 (hs θ.m1 (by simp))
    · exact k4.2.2 (hs θ.m2 (by simp))
    · exact k5.2.2 (hs θ.m3 (by simp))

/-- C108: a forward pass (of either mode, with any parameters) with a block that returns `T'` times succeeds exactly if the images fit, there are at least two samples, two latent dimensions and two times, and the block returns as many times
as the network was built for. -/
theorem C108_forward (t : Bool) {chans f d T T' : Nat} (hf : 0 < f) (hd : 0 < d) (θ : Params) {blk : Blk} (hb : ∀ v, ∃ out, blk v = .ok (T', out)) (x : Batch) :
    (∃ r, forward t blk (Net.new chans f d T θ) x = .ok r) ↔ Fitting chans x ∧ 2 ≤ x.n ∧ 2 ≤ d ∧ 2 ≤ T ∧ T' = T := by
  constructor
  · rintro ⟨r, h⟩
    obtain ⟨e, h1, h⟩ := bind_ok h
    obtain ⟨b, h2, h⟩ := bind_ok h
    obtain ⟨s, h3, h⟩ := bind_ok h
    obtain ⟨y, h4, h⟩ := bind_ok h
    obtain ⟨hn, hx⟩ := (C108_encoder t hf θ x).1 ⟨e, h1⟩
    obtain ⟨out, h5⟩ := hb e.1
    rw [h5] at h2
    cases h2
    obtain ⟨⟨c1, c2, c3, c4⟩, rfl⟩ := (rows_iff hn hd).1 h3
    refine ⟨hx, by omega, ?_, ?_, c4⟩
    · have : d ≠ 1 := c3
      omega
    · have h7 : T' = T := c4
      have : T ≠ 0 := by
        rintro rfl
        obtain ⟨v, g1, h4⟩ := bind_ok h4
        obtain ⟨w, g2, h4⟩ := bind_ok h4
        unfold linear at g1
        split at g1
        · cases g1
        · cases g1
          rw [unflatten, if_pos (by show x.n * 0 = 0; rfl)] at g2
          cases g2
      omega
  · rintro ⟨hx, h1, h2, h3, rfl⟩
    obtain ⟨q, θ', h, _⟩ := forward_go t (f := f) h2 h3 θ hb hx h1
    exact ⟨_, h⟩

/-- C108: what a forward pass returns and leaves behind: an image of 28 by 28 pixels for every sample and every time, with all pixels strictly between 0 and 1; the trainable parameters are not changed, running variances do not become
negative, and in evaluation mode nothing is changed. -/
theorem C108_result {t : Bool} {chans f d T T' : Nat} (hf : 0 < f) (hd : 0 < d) {θ : Params} {blk : Blk} (hb : ∀ v, ∃ out, blk v = .ok (T', out)) {x : Batch} {q : Seqs} {a : Net}
    (h : forward t blk (Net.new chans f d T θ) x = .ok (q, a)) :
    q.n = x.n ∧ q.t = T ∧ (∀ n k y z, y < 28 → z < 28 → 0 < q.val n k y z ∧ q.val n k y z < 1) ∧ ∃ θ', a = Net.new chans f d T θ' ∧ Params.Same θ θ' ∧ (t = false → θ' = θ) ∧ (Params.Sound θ → Params.Sound θ') := by
  obtain ⟨h1, h2, h3, h4, rfl⟩ := (C108_forward t hf hd θ hb x).1 ⟨_, h⟩
  obtain ⟨q', θ', g, g1, g2, g3, g4, g5, g6⟩ := forward_go t (f := f) h3 h4 θ hb h1 h2
  rw [g] at h
  cases h
  exact ⟨g1, g2, g3, θ', rfl, g4, g5, g6⟩

/-- C108: the reconstruction of an image with a completely black or white pixel is never exact. -/
theorem C108_never_exact {t : Bool} {chans f d T T' : Nat} (hf : 0 < f) (hd : 0 < d) {θ : Params} {blk : Blk} (hb : ∀ v, ∃ out, blk v = .ok (T', out)) {x : Batch} {q : Seqs} {a : Net}
    (h : forward t blk (Net.new chans f d T θ) x = .ok (q, a)) (target : Nat → Nat → Nat → Nat → ℝ) {n k y z : Nat} (hn : n < x.n) (hk : k < T) (hy : y < 28) (hz : z < 28)
    (hp : target n k y z = 0 ∨ target n k y z = 1) :
    0 < ∑ n ∈ Finset.range x.n, ∑ k ∈ Finset.range T, ∑ y ∈ Finset.range 28, ∑ z ∈ Finset.range 28, (q.val n k y z - target n k y z) ^ 2 := by
  obtain ⟨_, _, h3, _⟩ := C108_result hf hd hb h
  obtain ⟨g1, g2⟩ := h3 n k y z hy hz
  have pos : 0 < (q.val n k y z - target n k y z) ^ 2 := by
    have : q.val n k y z - target n k y z ≠ 0 := by rcases hp with e | e <;> rw [e] <;> intro h <;> linarith
    positivity
  refine Finset.sum_pos' (fun _ _ => Finset.sum_nonneg fun _ _ => Finset.sum_nonneg fun _ _ => Finset.sum_nonneg fun _ _ => sq_nonneg _) ⟨n, by simpa using hn, ?_⟩
  refine Finset.sum_pos' (fun _ _ => Finset.sum_nonneg fun _ _ => Finset.sum_nonneg fun _ _ => sq_nonneg _) ⟨k, by simpa using hk, ?_⟩
  refine Finset.sum_pos' (fun _ _ => Finset.sum_nonneg fun _ _ => sq_nonneg _) ⟨y, by simpa using hy, ?_⟩
  exact Finset.sum_pos' (fun _ _ => sq_nonneg _) ⟨z, by simpa using hz, pos⟩

/-! ## Evaluation mode: one sample at a time -/

/-- The batch with only the sample `k`. -/
def Batch.sample (x : Batch) (k : Nat) : Batch := ⟨1, x.c, x.h, x.w, fun _ => x.val k⟩

/-- The batch with only the vector `k`. -/
def Vecs.sample (x : Vecs) (k : Nat) : Vecs := ⟨1, x.d, fun _ => x.val k⟩

theorem apply_sample {l : Layer} {x : Batch} {r : Batch × Layer} (h : l.apply false x = .ok r) (k : Nat) : l.apply false (x.sample k) = .ok (r.1.sample k, r.2) := by
  cases l with
  | conv => obtain ⟨h2, rfl⟩ := conv_iff.1 h; exact conv_iff.2 ⟨h2, rfl⟩
  | convT => obtain ⟨h2, rfl⟩ := convT_iff.1 h; exact convT_iff.2 ⟨h2, rfl⟩
  | norm => obtain ⟨h2, rfl⟩ := norm_iff.1 h; exact norm_iff.2 ⟨⟨h2.1, fun h => (by cases h)⟩, rfl⟩
  | relu => obtain rfl := relu_iff.1 h; rfl
  | sigmoid => obtain rfl := sigmoid_iff.1 h; rfl

theorem seq_sample {ls : List Layer} {x : Batch} {q : Batch × List Layer} (h : sequential false ls x = .ok q) (k : Nat) : sequential false ls (x.sample k) = .ok (q.1.sample k, q.2) := by
  induction ls generalizing x q with
  | nil => obtain rfl := seq_nil.1 h; rfl
  | cons l ls ih =>
    obtain ⟨r, h1, q', h2, rfl⟩ := seq_cons.1 h
    exact seq_go (apply_sample h1 k) (ih h2)

theorem linear_sample {i o : Nat} {θ : Linear} {v e : Vecs} (h : linear i o θ v = .ok e) (k : Nat) : linear i o θ (v.sample k) = .ok (e.sample k) := by
  unfold linear at h
  split at h
  · cases h
  · rename_i hd
    cases h
    exact linear_go (v := v.sample k) (show v.d = i by simpa using hd)

theorem encode_sample {a : Net} {x : Batch} {r : Vecs × Net} (h : encode false a x = .ok r) (k : Nat) : encode false a (x.sample k) = .ok (r.1.sample k, r.2) := by
  obtain ⟨q, h1, h⟩ := bind_ok h
  obtain ⟨v, h2, h⟩ := bind_ok h
  obtain ⟨e, h3, h⟩ := bind_ok h
  cases h
  have g2 : flatten (q.1.sample k) = .ok (v.sample k) := by
    unfold flatten at h2
    split at h2
    · cases h2
    · cases h2
      rfl
  simp only [encode, bind, Except.bind, seq_sample h1 k, g2, linear_sample h3 k]

theorem decode_sample {a : Net} {s : Vecs} {r : Batch × Net} (h : decode false a s = .ok r) (k : Nat) : decode false a (s.sample k) = .ok (r.1.sample k, r.2) := by
  obtain ⟨v, h1, h⟩ := bind_ok h
  obtain ⟨x, h2, h⟩ := bind_ok h
  obtain ⟨q, h3, h⟩ := bind_ok h
  cases h
  have g2 : unflatten 4 (v.sample k) = .ok (x.sample k) := by
    unfold unflatten at h2
    split at h2
    · cases h2
    · split at h2
      · cases h2
      · rename_i hv
        cases h2
        rw [unflatten, if_neg (by simp [Vecs.sample]), if_neg (show ¬ (v.sample k).d / 4 ^ 2 * 4 * 4 ≠ (v.sample k).d from hv)]
        rfl
  simp only [decode, bind, Except.bind, linear_sample h1 k, g2, seq_sample h3 k]

theorem parts {chans f d T : Nat} (hf : 0 < f) (hd : 0 < d) {θ : Params} {blk : Blk} {net : (Nat → ℝ) → Nat → Nat → ℝ} (hb : Separate blk T net) {x : Batch} {r : Seqs × Net}
    (h : forward false blk (Net.new chans f d T θ) x = .ok r) {t : Nat} (ht : t < T) (k : Nat) :
    ∃ e s, encode false (Net.new chans f d T θ) (x.sample k) = .ok e ∧ decode false e.2 ⟨1, d, fun _ => net (e.1.val 0) t⟩ = .ok s ∧ ∀ y z, y < 28 → z < 28 → r.1.val k t y z = s.1.val 0 0 y z := by
  obtain ⟨hx, hn, _⟩ := (C108_forward false hf hd θ (fun v => ⟨_, hb v⟩) x).1 ⟨_, h⟩
  obtain ⟨e, h1, h⟩ := bind_ok h
  obtain ⟨b, h2, h⟩ := bind_ok h
  obtain ⟨s, h3, h⟩ := bind_ok h
  obtain ⟨q, h4, h⟩ := bind_ok h
  obtain ⟨w, h5, h⟩ := bind_ok h
  cases h
  rw [hb] at h2
  cases h2
  obtain ⟨_, rfl⟩ := (rows_iff (by omega) hd).1 h3
  refine ⟨(e.1.sample k, e.2), (q.1.sample (k * T + t), q.2), encode_sample h1 k, ?_, fun y z hy hz => ?_⟩
  · have := decode_sample h4 (k * T + t)
    refine Eq.trans (congrArg _ ?_) this
    have e1 : (k * T + t) % T = t := by rw [Nat.add_comm, Nat.add_mul_mod_self_right, Nat.mod_eq_of_lt ht]
    have e2 : (k * T + t) / T = k := by rw [Nat.add_comm, Nat.add_mul_div_right _ _ (by omega), Nat.div_eq_of_lt ht, Nat.zero_add]
    show Vecs.mk 1 d (fun _ => net (e.1.val k) t) = Vecs.mk 1 d (fun _ j => net (e.1.val ((k * T + t) / T)) ((k * T + t) % T) j)
    rw [e1, e2]
  · obtain ⟨e', ν1, ν2, g1, _⟩ := encode_go false (f := f) (d := d) (T := T) θ (by omega) hx
    rw [g1] at h1
    cases h1
    obtain ⟨y', μ1, μ2, μ3, g4, g5, _⟩ := decode_go false (chans := chans) (f := f) (d := d) (T := T) { θ with n1 := ν1, n2 := ν2 } (s := ⟨x.n * T, d, fun r j => net (e'.val (r / T)) (r % T) j⟩) (Nat.mul_pos (by omega) (by omega)) rfl
    have e1 : q = (y', _) := Except.ok.inj (h4.symm.trans g4)
    subst e1
    obtain ⟨w', g6, _, _, g7⟩ := sequences_go g5
    rw [show sequences x.n T _ = _ from h5] at g6
    cases g6
    exact g7 k t y z hy hz

/-- The same image (also beyond its sizes) gives the same sequence. -/
theorem separate_of_same {chans f d T : Nat} (hf : 0 < f) (hd : 0 < d) {θ : Params} {blk : Blk} {net : (Nat → ℝ) → Nat → Nat → ℝ} (hb : Separate blk T net) {x x' : Batch} {r r' : Seqs × Net}
    (h : forward false blk (Net.new chans f d T θ) x = .ok r) (h' : forward false blk (Net.new chans f d T θ) x' = .ok r') {k k' : Nat} (hsize : x.h = x'.h ∧ x.w = x'.w) (hval : x.val k = x'.val k') {t y z : Nat}
    (ht : t < T) (hy : y < 28) (hz : z < 28) : r.1.val k t y z = r'.1.val k' t y z := by
  have hc := ((C108_forward false hf hd θ (fun v => ⟨_, hb v⟩) x).1 ⟨_, h⟩).1.1.trans ((C108_forward false hf hd θ (fun v => ⟨_, hb v⟩) x').1 ⟨_, h'⟩).1.1.symm
  have same : x.sample k = x'.sample k' := by
    unfold Batch.sample
    rw [hc, hsize.1, hsize.2, hval]
  obtain ⟨e, s, a1, a2, a3⟩ := parts hf hd hb h ht k
  obtain ⟨e', s', b1, b2, b3⟩ := parts hf hd hb h' ht k'
  rw [same, b1] at a1
  cases a1
  rw [b2] at a2
  cases a2
  rw [a3 y z hy hz, b3 y z hy hz]

/-! ## Training mode: the biases before batch normalisations -/

theorem mean_shift {x x' : Batch} (hs : Sized x' x.n x.c x.h x.w) (hx : 0 < x.n * x.h * x.w) {δ : Nat → ℝ} (hv : ∀ n c y z, x'.val n c y z = x.val n c y z + δ c) (c : Nat) : channelMean x' c = channelMean x c + δ c := by
  obtain ⟨h1, _, h3, h4⟩ := hs
  unfold channelMean channelSum
  rw [h1, h3, h4]
  have h0 : ((x.n * x.h * x.w : Nat) : ℝ) ≠ 0 := by exact_mod_cast hx.ne'
  simp only [hv, Finset.sum_add_distrib, Finset.sum_const, Finset.card_range, nsmul_eq_mul]
  push_cast at h0 ⊢
  rw [show (x.n : ℝ) * (x.h * (x.w * δ c)) = x.n * x.h * x.w * δ c by ring, add_div, mul_div_cancel_left₀ _ h0]

theorem used_shift {x x' : Batch} (hs : Sized x' x.n x.c x.h x.w) (hx : 0 < x.n * x.h * x.w) {δ : Nat → ℝ} (hv : ∀ n c y z, x'.val n c y z = x.val n c y z + δ c) (ν : Norm) : used true ν x' = used true ν x := by
  have hm := mean_shift hs hx hv
  obtain ⟨h1, h2, h3, h4⟩ := hs
  have hq : ∀ c, channelSq x' c = channelSq x c := fun c => by
    unfold channelSq channelSum
    rw [h1, h3, h4]
    simp only [hv, hm, add_sub_add_right_eq_sub]
  unfold used
  simp only [if_true]
  unfold normalise
  simp only [h1, h2, h3, h4, hq, hm, hv, add_sub_add_right_eq_sub]

/-- The output without the layers afterwards. -/
def output {α β : Type} (r : Py (α × β)) : Py α := r.bind fun x => .ok x.1

theorem out_cons (t : Bool) (l : Layer) (ls : List Layer) (x : Batch) : output (sequential t (l :: ls) x) = (l.apply t x).bind fun r => output (sequential t ls r.1) := by
  rw [sequential]
  cases l.apply t x with
  | error => rfl
  | ok r =>
    show output (do let q ← sequential t ls r.1; Except.ok (q.1, r.2 :: q.2)) = output (sequential t ls r.1)
    cases sequential t ls r.1 <;> rfl

theorem out_congr {t : Bool} (l : Layer) {ls ls' : List Layer} (h : ∀ y : Batch, 0 < y.n → output (sequential t ls y) = output (sequential t ls' y)) (x : Batch) (hx : 0 < x.n) :
    output (sequential t (l :: ls) x) = output (sequential t (l :: ls') x) := by
  rw [out_cons, out_cons]
  cases ha : l.apply t x with
  | error => rfl
  | ok r => exact h r.1 (by rw [apply_n ha]; exact hx)

/-- Two layers that differ by a constant per channel are the same before a batch normalisation in training mode. -/
theorem out_shift {l l' : Layer} {x : Batch} {y y' : Batch} (h : l.apply true x = .ok (y, l)) (h' : l'.apply true x = .ok (y', l')) (hs : Sized y' y.n y.c y.h y.w) (hy : 0 < y.n * y.h * y.w) {δ : Nat → ℝ}
    (hv : ∀ n c u v, y'.val n c u v = y.val n c u v + δ c) (c : Nat) (ν : Norm) (ls : List Layer) :
    output (sequential true (l :: .norm c ν :: ls) x) = output (sequential true (l' :: .norm c ν :: ls) x) := by
  have hu := used_shift hs hy hv ν
  obtain ⟨h1, h2, h3, h4⟩ := hs
  rw [out_cons, out_cons, h, h']
  show output (sequential true (.norm c ν :: ls) y) = output (sequential true (.norm c ν :: ls) y')
  rw [out_cons, out_cons, Layer.apply, Layer.apply, batchNorm, batchNorm, h1, h2, h3, h4]
  by_cases c1 : y.n * y.h * y.w = 1
  · simp [c1, Except.bind]
  · by_cases c2 : y.c = c
    · simp only [c1, c2, and_false, if_false, ne_eq, not_true_eq_false, if_true]
      unfold used at hu
      simp only [if_true, h1, h3, h4] at hu
      simp only [Except.bind, hu]
    · simp [c1, c2, Except.bind]

theorem conv_bias (i o s p : Nat) (k : Nat) (θ : Kernel) (b : Nat → ℝ) (c : Nat) (ν : Norm) (ls : List Layer) (x : Batch) (hx : 0 < x.n) :
    output (sequential true (.conv i o k s p θ :: .norm c ν :: ls) x) = output (sequential true (.conv i o k s p ⟨θ.weight, b⟩ :: .norm c ν :: ls) x) := by
  by_cases h : x.c = i ∧ 0 < x.h ∧ 0 < x.w ∧ k ≤ x.h + 2 * p ∧ k ≤ x.w + 2 * p
  · refine out_shift (l := .conv i o k s p θ) (l' := .conv i o k s p ⟨θ.weight, b⟩) (conv_iff.2 ⟨h, rfl⟩) (conv_iff.2 ⟨h, rfl⟩) ⟨rfl, rfl, rfl, rfl⟩ (Nat.mul_pos (Nat.mul_pos hx (Nat.succ_pos _)) (Nat.succ_pos _)) (δ := fun c => b c - θ.bias c) (fun n c u v => ?_) c ν ls
    show convVal i k s p ⟨θ.weight, b⟩ x n c u v = convVal i k s p θ x n c u v + _
    unfold convVal
    ring
  · rw [out_cons, out_cons, Layer.apply, Layer.apply, convolve, convolve, if_pos (by omega), if_pos (by omega)]
    rfl

theorem convT_bias (i o k s p q : Nat) (θ : Kernel) (b : Nat → ℝ) (c : Nat) (ν : Norm) (ls : List Layer) (x : Batch) (hx : 0 < x.n) :
    output (sequential true (.convT i o k s p q θ :: .norm c ν :: ls) x) = output (sequential true (.convT i o k s p q ⟨θ.weight, b⟩ :: .norm c ν :: ls) x) := by
  by_cases h : x.c = i ∧ 0 < x.h ∧ 0 < x.w ∧ 0 < sizeT k s p q x.h ∧ 0 < sizeT k s p q x.w
  · refine out_shift (l := .convT i o k s p q θ) (l' := .convT i o k s p q ⟨θ.weight, b⟩) (convT_iff.2 ⟨h, rfl⟩) (convT_iff.2 ⟨h, rfl⟩) ⟨rfl, rfl, rfl, rfl⟩ (Nat.mul_pos (Nat.mul_pos hx h.2.2.2.1) h.2.2.2.2) (δ := fun c => b c - θ.bias c) (fun n c u v => ?_) c ν ls
    show convTVal i k s p ⟨θ.weight, b⟩ x n c u v = convTVal i k s p θ x n c u v + _
    unfold convTVal
    ring
  · rw [out_cons, out_cons, Layer.apply, Layer.apply, convolveT, convolveT, if_pos (by omega), if_pos (by omega)]
    rfl

theorem encoder_bias (chans f d T : Nat) (θ : Params) (b1 b2 b3 b4 b5 : Nat → ℝ) (x : Batch) (hx : 0 < x.n) :
    output (sequential true (Net.new chans f d T θ).encoder x) = output (sequential true (Net.new chans f d T (θ.withBiases b1 b2 b3 b4 b5)).encoder x) := by
  unfold Net.new Params.withBiases
  dsimp only
  rw [conv_bias _ _ _ _ _ θ.e1 b1 _ _ _ x hx]
  refine out_congr _ (fun y hy => out_congr _ (fun y hy => out_congr _ (fun y hy => ?_) y hy) y hy) x hx
  exact conv_bias _ _ _ _ _ θ.e2 b2 _ _ _ y hy

theorem decoder_bias (chans f d T : Nat) (θ : Params) (b1 b2 b3 b4 b5 : Nat → ℝ) (x : Batch) (hx : 0 < x.n) :
    output (sequential true (Net.new chans f d T θ).decoder x) = output (sequential true (Net.new chans f d T (θ.withBiases b1 b2 b3 b4 b5)).decoder x) := by
  unfold Net.new Params.withBiases
  dsimp only
  rw [convT_bias _ _ _ _ _ _ θ.d1 b3 _ _ _ x hx]
  refine out_congr _ (fun y hy => out_congr _ (fun y hy => out_congr _ (fun y hy => ?_) y hy) y hy) x hx
  rw [convT_bias _ _ _ _ _ _ θ.d2 b4 _ _ _ y hy]
  refine out_congr _ (fun y hy => out_congr _ (fun y hy => out_congr _ (fun y hy => ?_) y hy) y hy) y hy
  exact convT_bias _ _ _ _ _ _ θ.d3 b5 _ _ _ y hy

theorem out_encode (t : Bool) (a : Net) (x : Batch) : output (encode t a x) = (output (sequential t a.encoder x)).bind fun y => (flatten y).bind fun v => linear a.hDim a.d a.fc1 v := by
  rw [encode]
  cases h1 : sequential t a.encoder x with
  | error => rfl
  | ok r =>
    show output (do let v ← flatten r.1; let e ← linear a.hDim a.d a.fc1 v; Except.ok (e, ({ a with encoder := r.2 } : Net))) = (flatten r.1).bind fun v => linear a.hDim a.d a.fc1 v
    cases flatten r.1 with
    | error => rfl
    | ok v =>
      show output (do let e ← linear a.hDim a.d a.fc1 v; Except.ok (e, ({ a with encoder := r.2 } : Net))) = linear a.hDim a.d a.fc1 v
      cases linear a.hDim a.d a.fc1 v <;> rfl

theorem out_decode (t : Bool) (a : Net) (s : Vecs) : output (decode t a s) = (linear a.d a.hDim a.fc2 s).bind fun v => (unflatten 4 v).bind fun x => output (sequential t a.decoder x) := by
  rw [decode]
  cases linear a.d a.hDim a.fc2 s with
  | error => rfl
  | ok v =>
    show output (do let x ← unflatten 4 v; let r ← sequential t a.decoder x; Except.ok (r.1, ({ a with decoder := r.2 } : Net))) = (unflatten 4 v).bind fun x => output (sequential t a.decoder x)
    cases unflatten 4 v with
    | error => rfl
    | ok x =>
      show output (do let r ← sequential t a.decoder x; Except.ok (r.1, ({ a with decoder := r.2 } : Net))) = output (sequential t a.decoder x)
      cases sequential t a.decoder x <;> rfl

theorem out_forward (t : Bool) (blk : Blk) (a : Net) (x : Batch) :
    output (forward t blk a x) = (output (encode t a x)).bind fun e => (blk e).bind fun b => (rows a.T a.d x.n b.1 b.2).bind fun s => (output (decode t a s)).bind fun r => sequences x.n a.T r := by
  rw [forward]
  cases h1 : encode t a x with
  | error => rfl
  | ok e =>
    have he : ∀ s, output (decode t e.2 s) = output (decode t a s) := by
      obtain ⟨r, g1, h1⟩ := bind_ok h1
      obtain ⟨v, g2, h1⟩ := bind_ok h1
      obtain ⟨w, g3, h1⟩ := bind_ok h1
      cases h1
      intro s
      rw [out_decode, out_decode]
    show output (do let b ← blk e.1; let s ← rows a.T a.d x.n b.1 b.2; let r ← decode t e.2 s; let q ← sequences x.n a.T r.1; Except.ok (q, r.2)) = (blk e.1).bind _
    cases blk e.1 with
    | error => rfl
    | ok b =>
      show output (do let s ← rows a.T a.d x.n b.1 b.2; let r ← decode t e.2 s; let q ← sequences x.n a.T r.1; Except.ok (q, r.2)) = (rows a.T a.d x.n b.1 b.2).bind _
      cases rows a.T a.d x.n b.1 b.2 with
      | error => rfl
      | ok s =>
        show output (do let r ← decode t e.2 s; let q ← sequences x.n a.T r.1; Except.ok (q, r.2)) = (output (decode t a s)).bind _
        rw [← he s]
        cases decode t e.2 s with
        | error => rfl
        | ok r =>
          show output (do let q ← sequences x.n a.T r.1; Except.ok (q, r.2)) = sequences x.n a.T r.1
          cases sequences x.n a.T r.1 <;> rfl

/-- C108: in training mode the reconstruction (or the exception) does not depend on the biases of the five convolutions that are followed by a batch normalisation: these parameters are not trained to any purpose. -/
theorem C108_bias {chans f d T : Nat} (θ : Params) (blk : Blk) (x : Batch) (hx : 0 < x.n) (b1 b2 b3 b4 b5 : Nat → ℝ) :
    output (forward true blk (Net.new chans f d T (θ.withBiases b1 b2 b3 b4 b5)) x) = output (forward true blk (Net.new chans f d T θ) x) := by
  rw [out_forward, out_forward, out_encode, out_encode, ← encoder_bias chans f d T θ b1 b2 b3 b4 b5 x hx]
  have hdec : ∀ s, output (decode true (Net.new chans f d T (θ.withBiases b1 b2 b3 b4 b5)) s) = output (decode true (Net.new chans f d T θ) s) := by
    intro s
    rw [out_decode, out_decode]
    show (linear d (f * 4 ^ 3) θ.f2 s).bind _ = (linear d (f * 4 ^ 3) θ.f2 s).bind _
    cases linear d (f * 4 ^ 3) θ.f2 s with
    | error => rfl
    | ok v =>
      show (unflatten 4 v).bind _ = (unflatten 4 v).bind _
      cases hu : unflatten 4 v with
      | error => rfl
      | ok y =>
        refine (decoder_bias chans f d T θ b1 b2 b3 b4 b5 y ?_).symm
        unfold unflatten at hu
        split at hu
        · cases hu
        · rename_i hn
          split at hu
          · cases hu
          · cases hu
            exact Nat.pos_of_ne_zero hn
  simp only [hdec]
  rfl

/-! ## The networks of `Verif.Masked` and `Verif.Rotated` -/

theorem decodeList_cons (t : Bool) {chans f d T : Nat} (θ : Params) (v : Nat → ℝ) (l : List (Nat → ℝ)) :
    ∃ y a, decode t (Net.new chans f d T θ) ⟨(v :: l).length, d, fun n => (v :: l).getD n fun _ => 0⟩ = .ok (y, a) ∧ decodeList t (Net.new chans f d T θ) (v :: l) = (List.range (v :: l).length).map fun n => y.val n 0 := by
  obtain ⟨y, ν1, ν2, ν3, h, ⟨h1, _⟩, _⟩ := decode_go t (chans := chans) (f := f) (d := d) (T := T) θ (s := ⟨(v :: l).length, d, fun n => (v :: l).getD n fun _ => 0⟩) (Nat.succ_pos _) rfl
  refine ⟨y, _, h, ?_⟩
  unfold decodeList
  rw [show decode t (Net.new chans f d T θ) ⟨(v :: l).length, (Net.new chans f d T θ).d, fun n => (v :: l).getD n fun _ => 0⟩ = _ from h]
  dsimp only
  rw [show y.n = (v :: l).length from h1]

theorem decodeList_nil (t : Bool) {chans f d T : Nat} (θ : Params) : decodeList t (Net.new chans f d T θ) [] = [] := by
  have h : decode t (Net.new chans f d T θ) ⟨0, d, fun n => ([] : List (Nat → ℝ)).getD n fun _ => 0⟩ = .error .indexError := by
    have h1 : linear (Net.new chans f d T θ).d (Net.new chans f d T θ).hDim (Net.new chans f d T θ).fc2 ⟨0, d, fun n => ([] : List (Nat → ℝ)).getD n fun _ => 0⟩ = _ := linear_go rfl
    simp only [decode, bind, Except.bind, h1]
    rw [unflatten, if_pos rfl]
  unfold decodeList
  rw [show decode t (Net.new chans f d T θ) ⟨([] : List (Nat → ℝ)).length, (Net.new chans f d T θ).d, fun n => ([] : List (Nat → ℝ)).getD n fun _ => 0⟩ = _ from h]

/-- C108: in both modes the decoder returns one image for every latent value, as `C70_defined` requires. -/
theorem C108_decoder_length (t : Bool) {chans f d T : Nat} (θ : Params) (l : List (Nat → ℝ)) : (decodeList t (Net.new chans f d T θ) l).length = l.length := by
  cases l with
  | nil => rw [decodeList_nil]; rfl
  | cons v l =>
    obtain ⟨y, a, _, h⟩ := decodeList_cons t (chans := chans) (f := f) (d := d) (T := T) θ v l
    rw [h, List.length_map, List.length_range]

/-- C108: the decoder in evaluation mode treats the latent values one by one, as `C70_loss`, `C70_evaluate` and `C106_evaluate` require. -/
theorem C108_decoder_map {chans f d T : Nat} (θ : Params) : ∃ g : (Nat → ℝ) → Nat → Nat → ℝ, ∀ l, decodeList false (Net.new chans f d T θ) l = l.map g := by
  refine ⟨fun v => (decodeList false (Net.new chans f d T θ) [v]).headD fun _ _ => 0, fun l => ?_⟩
  cases l with
  | nil => rw [decodeList_nil]; rfl
  | cons u l =>
    obtain ⟨y, a, h, e⟩ := decodeList_cons false (chans := chans) (f := f) (d := d) (T := T) θ u l
    rw [e]
    refine List.ext_getElem (by simp) fun k k1 k2 => ?_
    have hk : k < (u :: l).length := by simpa using k2
    rw [List.getElem_map, List.getElem_map, List.getElem_range]
    obtain ⟨y', a', h', e'⟩ := decodeList_cons false (chans := chans) (f := f) (d := d) (T := T) θ (u :: l)[k] []
    rw [e']
    have g1 := decode_sample h k
    have g2 := decode_sample h' 0
    have e3 : Vecs.sample ⟨(u :: l).length, d, fun n => (u :: l).getD n fun _ => 0⟩ k = Vecs.sample ⟨[(u :: l)[k]].length, d, fun n => [(u :: l)[k]].getD n fun _ => 0⟩ 0 := by
      show Vecs.mk 1 d (fun _ => (u :: l).getD k fun _ => 0) = Vecs.mk 1 d (fun _ => (u :: l)[k])
      rw [List.getD_eq_getElem?_getD, List.getElem?_eq_getElem hk]
      rfl
    rw [e3, g2] at g1
    have e4 : y'.sample 0 = y.sample k := congrArg Prod.fst (Except.ok.inj g1)
    have e5 : y'.val 0 = y.val k := congrFun (congrArg Batch.val e4) 0
    show y.val k 0 = y'.val 0 0
    rw [e5]

/-- C108: `evaluate` of `rot.py` with this decoder reports the error of each test sequence, which depends only on its own first image and its image at the evaluation time (if the encoder with the block gives every first image its own latent
values, see `C108_separate`). -/
theorem C108_evaluate {chans f d T iEval : Nat} (hT : T ≠ 1) (hd : d ≠ 1) (hi : iEval < T) (θ : Params) (net : (Nat → Nat → ℝ) → Nat → Nat → ℝ) (sq : (Nat → Nat → ℝ) → (Nat → Nat → ℝ) → ℝ) (pix : Nat) (dflt : Nat → Nat → Nat → ℝ)
    (seqs : List (Nat → Nat → Nat → ℝ)) : ∃ g : (Nat → ℝ) → Nat → Nat → ℝ, Rotated.evaluate T d iEval (fun x t n => net (x n) t) (decodeList false (Net.new chans f d T θ)) sq pix dflt seqs =
      if seqs.length % 25 = 1 then .error .runtimeError else .ok (seqs.map fun s => sq (g (net (s 0) iEval)) (s iEval) / pix, seqs.length) := by
  obtain ⟨g, hg⟩ := C108_decoder_map (chans := chans) (f := f) (d := d) (T := T) θ
  refine ⟨g, ?_⟩
  rw [funext hg]
  exact Rotated.C106_evaluate hT hd hi net g sq pix dflt seqs

/-! ## Cases -/

/-- Parameters that are all zero (with variance 1). -/
def zeroParams : Params :=
  let k : Kernel := ⟨fun _ _ _ _ => 0, fun _ => 0⟩
  let ν : Norm := ⟨fun _ => 1, fun _ => 0, fun _ => 0, fun _ => 1⟩
  let l : Linear := ⟨fun _ _ => 0, fun _ => 0⟩
  ⟨k, k, k, ν, ν, l, l, k, k, k, k, ν, ν, ν⟩

/-- A block that keeps the encoded images at 16 times. -/
def still : Blk := fun v => .ok (16, fun _ n j => v.val n j)

theorem still_separate : Separate still 16 fun v _ j => v j := fun _ => rfl

/-- Two images of the size of the data sets. -/
def two : Batch := ⟨2, 1, 28, 28, fun n _ y z => if n = y ∧ z < 7 then 1 else 0⟩

theorem two_fits : Fitting 1 two := ⟨rfl, by decide⟩

example (t : Bool) : ∃ r, forward t still (Net.new 1 8 20 16 zeroParams) two = .ok r :=
  (C108_forward t (by decide) (by decide) zeroParams (fun v => ⟨_, still_separate v⟩) two).2 ⟨two_fits, by decide, by decide, by decide, rfl⟩

/-- Sizes other than 28 by 28 that are accepted (and reconstructed with 28 by 28 pixels), and sizes that are not. -/
example : Fitting 3 ⟨1, 3, 25, 32, fun _ _ _ _ => 0⟩ ∧ Fitting 3 ⟨1, 3, 8, 128, fun _ _ _ _ => 0⟩ ∧ ¬ Fitting 3 ⟨1, 3, 24, 28, fun _ _ _ _ => 0⟩ ∧ ¬ Fitting 3 ⟨1, 3, 33, 32, fun _ _ _ _ => 0⟩ := by
  unfold Fitting eighths
  decide

/-- A single sample cannot be reconstructed. -/
example (t : Bool) (θ : Params) (x : Batch) (hx : x.n = 1) : ¬ ∃ r, forward t still (Net.new 1 8 20 16 θ) x = .ok r := fun h => by
  have := ((C108_forward t (by decide) (by decide) θ (fun v => ⟨_, still_separate v⟩) x).1 h).2.1
  omega

end Verif.Autoencoder
