import Verif.Autoencoder.Props

/-!
# C108: the result of the autoencoder depends only on the pixels of the images

Values of a model tensor beyond its sizes have no meaning, so no result may depend on them.
-/

namespace Verif.Autoencoder
open Verif

theorem Both.bind {α β : Type} {R : α → α → Prop} {Q : β → β → Prop} {a b : Py α} {f g : α → Py β} (h : Both R a b) (hf : ∀ u v, a = .ok u → b = .ok v → R u v → Both Q (f u) (g v)) : Both Q (a.bind f) (b.bind g) := by
  rcases h with ⟨e, h1, h2⟩ | ⟨u, v, h1, h2, h3⟩
  · exact .inl ⟨e, by rw [h1]; rfl, by rw [h2]; rfl⟩
  · have := hf u v h1 h2 h3
    rw [h1, h2]
    exact this

theorem Both.ok {α : Type} {R : α → α → Prop} {u v : α} (h : R u v) : Both R (.ok u) (.ok v) := .inr ⟨u, v, rfl, rfl, h⟩

theorem at0_agree {σ : Nat → Nat} {x x' : Batch} (h : x.Agree σ x') {n c : Nat} (hn : n < x.n) (hc : c < x.c) (a b : Int) : at0 x'.h x'.w (x'.val n c) a b = at0 x.h x.w (x.val (σ n) c) a b := by
  unfold at0
  rw [h.h, h.w]
  by_cases hi : 0 ≤ a ∧ a < x.h ∧ 0 ≤ b ∧ b < x.w
  · rw [if_pos hi, if_pos hi, h.val n c _ _ hn hc (by omega) (by omega)]
  · rw [if_neg hi, if_neg hi]

theorem sum_agree {σ : Nat → Nat} {x x' : Batch} (h : x.Agree σ x') {f g : Nat → Nat → Nat → ℝ} (hf : ∀ n y z, n < x.n → y < x.h → z < x.w → g n y z = f (σ n) y z) : channelSum x' g = channelSum x f := by
  unfold channelSum
  rw [h.n, h.h, h.w]
  refine Finset.sum_bij (fun n _ => σ n) (fun n hn => Finset.mem_range.2 (h.order.mapsTo (Finset.mem_range.1 hn))) (fun n hn m hm e => h.order.injOn (Finset.mem_range.1 hn) (Finset.mem_range.1 hm) e) (fun m hm => ?_) fun n hn =>
    Finset.sum_congr rfl fun y hy => Finset.sum_congr rfl fun z hz => hf n y z (Finset.mem_range.1 hn) (Finset.mem_range.1 hy) (Finset.mem_range.1 hz)
  obtain ⟨n, hn, e⟩ := h.order.surjOn (Finset.mem_range.1 hm)
  exact ⟨n, Finset.mem_range.2 hn, e⟩

theorem mean_agree {σ : Nat → Nat} {x x' : Batch} (h : x.Agree σ x') {c : Nat} (hc : c < x.c) : channelMean x' c = channelMean x c := by
  unfold channelMean
  rw [sum_agree h (f := fun n y z => x.val n c y z) fun n y z hn hy hz => h.val n c y z hn hc hy hz, h.n, h.h, h.w]

theorem sq_agree {σ : Nat → Nat} {x x' : Batch} (h : x.Agree σ x') {c : Nat} (hc : c < x.c) : channelSq x' c = channelSq x c := by
  unfold channelSq
  exact sum_agree h (f := fun n y z => (x.val n c y z - channelMean x c) ^ 2) fun n y z hn hy hz => by rw [h.val n c y z hn hc hy hz, mean_agree h hc]

theorem used_agree (t : Bool) (ν : Norm) {σ : Nat → Nat} {x x' : Batch} (h : x.Agree σ x') : (used t ν x).Agree σ (used t ν x') := by
  unfold used
  cases t with
  | true =>
    refine ⟨h.order, h.n, h.c, h.h, h.w, fun n c y z hn hc hy hz => ?_⟩
    show (x'.val n c y z - channelMean x' c) / Real.sqrt (channelSq x' c / (x'.n * x'.h * x'.w : Nat) + 1 / 100000) * ν.gain c + ν.offset c = (x.val (σ n) c y z - channelMean x c) / Real.sqrt (channelSq x c / (x.n * x.h * x.w : Nat) + 1 / 100000) * ν.gain c + ν.offset c
    rw [h.val n c y z hn hc hy hz, mean_agree h hc, sq_agree h hc, h.n, h.h, h.w]
  | false =>
    refine ⟨h.order, h.n, h.c, h.h, h.w, fun n c y z hn hc hy hz => ?_⟩
    show (x'.val n c y z - ν.mean c) / _ * _ + _ = (x.val (σ n) c y z - ν.mean c) / _ * _ + _
    rw [h.val n c y z hn hc hy hz]

theorem pointwise_agree (f : ℝ → ℝ) {σ : Nat → Nat} {x x' : Batch} (h : x.Agree σ x') : (pointwise f x).Agree σ (pointwise f x') :=
  ⟨h.order, h.n, h.c, h.h, h.w, fun n c y z hn hc hy hz => congrArg f (h.val n c y z hn hc hy hz)⟩

theorem convolve_agree (i o k s p : Nat) (θ : Kernel) {σ : Nat → Nat} {x x' : Batch} (h : x.Agree σ x') : Both (Batch.Agree σ) (convolve i o k s p θ x) (convolve i o k s p θ x') := by
  unfold convolve
  rw [h.c, h.h, h.w]
  by_cases hc : x.c ≠ i ∨ x.h = 0 ∨ x.w = 0 ∨ x.h + 2 * p < k ∨ x.w + 2 * p < k
  · rw [if_pos hc, if_pos hc]
    exact .inl ⟨_, rfl, rfl⟩
  · rw [if_neg hc, if_neg hc]
    refine .ok ⟨h.order, h.n, rfl, rfl, rfl, fun n c y z hn _ _ _ => ?_⟩
    show convVal i k s p θ x' n c y z = convVal i k s p θ x (σ n) c y z
    unfold convVal
    refine congrArg _ (Finset.sum_congr rfl fun a ha => Finset.sum_congr rfl fun u _ => Finset.sum_congr rfl fun v _ => ?_)
    rw [at0_agree h hn (by have := Finset.mem_range.1 ha; omega)]

theorem convolveT_agree (i o k s p q : Nat) (θ : Kernel) {σ : Nat → Nat} {x x' : Batch} (h : x.Agree σ x') : Both (Batch.Agree σ) (convolveT i o k s p q θ x) (convolveT i o k s p q θ x') := by
  unfold convolveT
  rw [h.c, h.h, h.w]
  by_cases hc : x.c ≠ i ∨ x.h = 0 ∨ x.w = 0 ∨ sizeT k s p q x.h = 0 ∨ sizeT k s p q x.w = 0
  · rw [if_pos hc, if_pos hc]
    exact .inl ⟨_, rfl, rfl⟩
  · rw [if_neg hc, if_neg hc]
    refine .ok ⟨h.order, h.n, rfl, rfl, rfl, fun n c y z hn _ _ _ => ?_⟩
    show convTVal i k s p θ x' n c y z = convTVal i k s p θ x (σ n) c y z
    unfold convTVal
    rw [h.h, h.w]
    refine congrArg _ (Finset.sum_congr rfl fun a ha => Finset.sum_congr rfl fun u hu => Finset.sum_congr rfl fun v hv => ?_)
    rw [h.val n a u v hn (by have := Finset.mem_range.1 ha; omega) (Finset.mem_range.1 hu) (Finset.mem_range.1 hv)]

theorem apply_agree (t : Bool) (l : Layer) {σ : Nat → Nat} {x x' : Batch} (h : x.Agree σ x') : Both (fun r r' => r.1.Agree σ r'.1) (l.apply t x) (l.apply t x') := by
  cases l with
  | conv i o k s p θ => exact (convolve_agree i o k s p θ h).bind fun u v _ _ huv => .ok huv
  | convT i o k s p q θ => exact (convolveT_agree i o k s p q θ h).bind fun u v _ _ huv => .ok huv
  | norm c ν =>
    refine Both.bind (R := fun r r' => r.1.Agree σ r'.1) ?_ fun u v _ _ huv => .ok huv
    have hu := used_agree t ν h
    unfold batchNorm
    rw [h.n, h.c, h.h, h.w]
    by_cases h1 : t = true ∧ x.n * x.h * x.w = 1
    · rw [if_pos h1, if_pos h1]
      exact .inl ⟨_, rfl, rfl⟩
    · rw [if_neg h1, if_neg h1]
      by_cases h2 : x.c ≠ c
      · rw [if_pos h2, if_pos h2]
        exact .inl ⟨_, rfl, rfl⟩
      · rw [if_neg h2, if_neg h2]
        unfold used at hu
        rw [h.n, h.h, h.w] at hu
        cases t
        · exact .ok hu
        · exact .ok hu
  | relu => exact .ok (pointwise_agree _ h)
  | sigmoid => exact .ok (pointwise_agree _ h)

theorem seq_agree (t : Bool) (ls : List Layer) {σ : Nat → Nat} {x x' : Batch} (h : x.Agree σ x') : Both (Batch.Agree σ) (output (sequential t ls x)) (output (sequential t ls x')) := by
  induction ls generalizing x x' with
  | nil => exact .ok h
  | cons l ls ih =>
    rw [out_cons, out_cons]
    exact (apply_agree t l h).bind fun u v _ _ huv => ih huv

theorem flatten_agree {σ : Nat → Nat} {x x' : Batch} (h : x.Agree σ x') : Both (Vecs.Agree σ) (flatten x) (flatten x') := by
  unfold flatten
  rw [h.n, h.c, h.h, h.w]
  by_cases hn : x.n = 0
  · rw [if_pos hn, if_pos hn]
    exact .inl ⟨_, rfl, rfl⟩
  · rw [if_neg hn, if_neg hn]
    refine .ok ⟨h.order, rfl, rfl, fun k j hk hj => ?_⟩
    have hj' : j < x.c * x.h * x.w := hj
    have pw : 0 < x.w := Nat.pos_of_ne_zero fun e => by simp [e] at hj'
    have ph : 0 < x.h := Nat.pos_of_ne_zero fun e => by simp [e] at hj'
    exact h.val _ _ _ _ hk (Nat.div_lt_of_lt_mul (by rw [Nat.mul_comm (x.h * x.w), ← Nat.mul_assoc]; exact hj')) (Nat.mod_lt _ ph) (Nat.mod_lt _ pw)

theorem linear_agree (i o : Nat) (θ : Linear) {σ : Nat → Nat} {v v' : Vecs} (h : v.Agree σ v') : Both (Vecs.Agree σ) (linear i o θ v) (linear i o θ v') := by
  unfold linear
  rw [h.n, h.d]
  by_cases hd : v.d ≠ i
  · rw [if_pos hd, if_pos hd]
    exact .inl ⟨_, rfl, rfl⟩
  · rw [if_neg hd, if_neg hd]
    refine .ok ⟨h.order, rfl, rfl, fun k j hk _ => congrArg _ (Finset.sum_congr rfl fun a ha => ?_)⟩
    rw [h.val k a hk (by have := Finset.mem_range.1 ha; omega)]

theorem unflatten_agree (w : Nat) {σ : Nat → Nat} {v v' : Vecs} (h : v.Agree σ v') : Both (Batch.Agree σ) (unflatten w v) (unflatten w v') := by
  unfold unflatten
  rw [h.n, h.d]
  by_cases hn : v.n = 0
  · rw [if_pos hn, if_pos hn]
    exact .inl ⟨_, rfl, rfl⟩
  · rw [if_neg hn, if_neg hn]
    by_cases hd : v.d / w ^ 2 * w * w ≠ v.d
    · rw [if_pos hd, if_pos hd]
      exact .inl ⟨_, rfl, rfl⟩
    · rw [if_neg hd, if_neg hd]
      refine .ok ⟨h.order, rfl, rfl, rfl, rfl, fun k c y z hk hc hy hz => h.val k _ hk ?_⟩
      have hc' : c + 1 ≤ v.d / w ^ 2 := hc
      have hy' : y + 1 ≤ w := hy
      have hz' : z < w := hz
      have hd' : v.d / w ^ 2 * w * w = v.d := by omega
      have e1 := Nat.mul_le_mul_right (w * w) hc'
      have e2 := Nat.mul_le_mul_right w hy'
      rw [Nat.add_mul, Nat.one_mul] at e1 e2
      rw [Nat.mul_assoc] at hd'
      omega

/-- The order of the rows of all samples and times. -/
def rowOrder (σ : Nat → Nat) (T r : Nat) : Nat := σ (r / T) * T + r % T

theorem div_lt {r N T : Nat} (h : r < N * T) : r / T < N := Nat.div_lt_of_lt_mul (by rw [Nat.mul_comm]; exact h)

theorem split_div {T t : Nat} (k : Nat) (ht : t < T) : (k * T + t) / T = k ∧ (k * T + t) % T = t :=
  ⟨by rw [Nat.add_comm, Nat.add_mul_div_right _ _ (by omega), Nat.div_eq_of_lt ht, Nat.zero_add], by rw [Nat.add_comm, Nat.add_mul_mod_self_right, Nat.mod_eq_of_lt ht]⟩

theorem split_lt {k N t T : Nat} (hk : k < N) (ht : t < T) : k * T + t < N * T := by
  have := Nat.mul_le_mul_right T (show k + 1 ≤ N from hk)
  rw [Nat.add_mul, Nat.one_mul] at this
  omega

theorem rowOrder_bij {σ : Nat → Nat} {N T : Nat} (h : Set.BijOn σ (Set.Iio N) (Set.Iio N)) : Set.BijOn (rowOrder σ T) (Set.Iio (N * T)) (Set.Iio (N * T)) := by
  by_cases hT : T = 0
  · subst hT
    rw [Nat.mul_zero, Set.Iio_eq_empty_iff.2 (by simp)]
    exact Set.bijOn_empty _
  have pT : 0 < T := Nat.pos_of_ne_zero hT
  refine ⟨fun r hr => split_lt (h.mapsTo (div_lt hr)) (Nat.mod_lt _ pT), fun r hr r' hr' e => ?_, fun r hr => ?_⟩
  · obtain ⟨e1, e2⟩ := split_div (σ (r / T)) (Nat.mod_lt r pT)
    obtain ⟨e3, e4⟩ := split_div (σ (r' / T)) (Nat.mod_lt r' pT)
    have e' : σ (r / T) * T + r % T = σ (r' / T) * T + r' % T := e
    rw [e', e3] at e1
    rw [e', e4] at e2
    have e5 := h.injOn (div_lt hr') (div_lt hr) e1
    have e6 := Nat.div_add_mod r T
    have e7 := Nat.div_add_mod r' T
    rw [e5, e2] at e7
    exact e6.symm.trans e7
  · obtain ⟨k, hk, e⟩ := h.surjOn (div_lt hr)
    refine ⟨k * T + r % T, split_lt hk (Nat.mod_lt _ pT), ?_⟩
    obtain ⟨e1, e2⟩ := split_div k (Nat.mod_lt r pT)
    unfold rowOrder
    rw [e1, e2, e, Nat.mul_comm]
    exact Nat.div_add_mod r T

theorem rows_agree (T d N T' : Nat) {σ : Nat → Nat} (hσ : Set.BijOn σ (Set.Iio N) (Set.Iio N)) {out out' : Nat → Nat → Nat → ℝ} (h : ∀ t n j, t < T' → n < N → j < d → out' t n j = out t (σ n) j) :
    Both (Vecs.Agree (rowOrder σ T)) (rows T d N T' out) (rows T d N T' out') := by
  unfold rows
  by_cases h1 : Masked.squeezable T' N d = false
  · rw [if_pos h1, if_pos h1]
    exact .inl ⟨_, rfl, rfl⟩
  · rw [if_neg h1, if_neg h1]
    by_cases h2 : N * T' * d ≠ N * T * d
    · rw [if_pos h2, if_pos h2]
      exact .inl ⟨_, rfl, rfl⟩
    · rw [if_neg h2, if_neg h2]
      refine .ok ⟨rowOrder_bij hσ, rfl, rfl, fun r j hr hj => ?_⟩
      have hr' : r < N * T := hr
      have hj' : j < d := hj
      have pN : 0 < N := Nat.pos_of_ne_zero fun e => by simp [e] at hr'
      have pT : 0 < T := Nat.pos_of_ne_zero fun e => by simp [e] at hr'
      have e : T' = T := Nat.eq_of_mul_eq_mul_left pN (Nat.eq_of_mul_eq_mul_right (show 0 < d by omega) (by omega))
      obtain ⟨e1, e2⟩ := split_div (σ (r / T)) (Nat.mod_lt r pT)
      show out' (r % T) (r / T) j = out (rowOrder σ T r % T) (rowOrder σ T r / T) j
      unfold rowOrder
      rw [e1, e2]
      exact h _ _ _ (by rw [e]; exact Nat.mod_lt _ pT) (div_lt hr') hj'

/-- Two sequences with the same sizes, the second one with the pixels of the first one in the order `σ`. -/
structure Seqs.Agree (σ : Nat → Nat) (q q' : Seqs) : Prop where
  n : q'.n = q.n
  t : q'.t = q.t
  val : ∀ k t y z, k < q.n → t < q.t → y < 28 → z < 28 → q'.val k t y z = q.val (σ k) t y z

theorem index_parts {c h w m r : Nat} (ph : 0 < h) (pw : 0 < w) (hr : r < c * h * w) :
    (m * (c * h * w) + r) / (c * h * w) = m ∧ (m * (c * h * w) + r) / (h * w) % c = r / (h * w) % c ∧ (m * (c * h * w) + r) / w % h = r / w % h ∧ (m * (c * h * w) + r) % w = r % w := by
  refine ⟨(split_div m hr).1, ?_, ?_, ?_⟩
  · rw [show m * (c * h * w) + r = r + (m * c) * (h * w) by ring, Nat.add_mul_div_right _ _ (Nat.mul_pos ph pw), Nat.add_mul_mod_self_right]
  · rw [show m * (c * h * w) + r = r + (m * c * h) * w by ring, Nat.add_mul_div_right _ _ pw, Nat.add_mul_mod_self_right]
  · rw [show m * (c * h * w) + r = r + (m * c * h) * w by ring, Nat.add_mul_mod_self_right]

theorem sequences_agree (N T : Nat) {σ : Nat → Nat} {s s' : Batch} (hn : s.n = N * T) (h : s.Agree (rowOrder σ T) s') : Both (Seqs.Agree σ) (sequences N T s) (sequences N T s') := by
  unfold sequences
  rw [h.n, h.c, h.h, h.w]
  by_cases h1 : s.n * s.c * s.h * s.w ≠ N * T * (1 * 28 * 28)
  · rw [if_pos h1, if_pos h1]
    exact .inl ⟨_, rfl, rfl⟩
  · rw [if_neg h1, if_neg h1]
    refine .ok ⟨rfl, rfl, fun k t y z hk ht hy hz => ?_⟩
    have hk' : k < N := hk
    have ht' : t < T := ht
    have hm := split_lt hk' ht'
    have hchw : s.c * s.h * s.w = 784 := by
      refine Nat.eq_of_mul_eq_mul_left (show 0 < N * T by omega) ?_
      rw [← hn]
      rw [← hn] at h1
      calc s.n * (s.c * s.h * s.w) = s.n * s.c * s.h * s.w := by ring
        _ = _ := by omega
    have pw : 0 < s.w := Nat.pos_of_ne_zero fun e => by simp [e] at hchw
    have ph : 0 < s.h := Nat.pos_of_ne_zero fun e => by simp [e] at hchw
    have pc : 0 < s.c := Nat.pos_of_ne_zero fun e => by simp [e] at hchw
    have hr : y * 28 + z < s.c * s.h * s.w := by omega
    have e1 : ∀ m, (m * 28 + y) * 28 + z = m * (s.c * s.h * s.w) + (y * 28 + z) := fun m => by rw [hchw]; ring
    obtain ⟨a1, a2, a3, a4⟩ := index_parts (m := k * T + t) ph pw hr
    obtain ⟨b1, b2, b3, b4⟩ := index_parts (m := σ k * T + t) ph pw hr
    show s'.val _ _ _ _ = s.val _ _ _ _
    rw [e1, e1, a1, a2, a3, a4, b1, b2, b3, b4, h.val _ _ _ _ (by rw [hn]; exact hm) (Nat.mod_lt _ pc) (Nat.mod_lt _ ph) (Nat.mod_lt _ pw)]
    unfold rowOrder
    rw [(split_div k ht').1, (split_div k ht').2]

theorem flatten_n {x : Batch} {v : Vecs} (h : flatten x = .ok v) : v.n = x.n := by
  unfold flatten at h
  split at h
  · cases h
  · cases h; rfl

theorem linear_n {i o : Nat} {θ : Linear} {v e : Vecs} (h : linear i o θ v = .ok e) : e.n = v.n ∧ e.d = o := by
  unfold linear at h
  split at h
  · cases h
  · cases h; exact ⟨rfl, rfl⟩

theorem unflatten_n {w : Nat} {v : Vecs} {x : Batch} (h : unflatten w v = .ok x) : x.n = v.n := by
  unfold unflatten at h
  split at h
  · cases h
  · split at h
    · cases h
    · cases h; rfl

theorem rows_n {T d N T' : Nat} {out : Nat → Nat → Nat → ℝ} {s : Vecs} (h : rows T d N T' out = .ok s) : s.n = N * T := by
  unfold rows at h
  split at h
  · cases h
  · split at h
    · cases h
    · cases h; rfl

theorem out_seq_n {t : Bool} {ls : List Layer} {x y : Batch} (h : output (sequential t ls x) = .ok y) : y.n = x.n := by
  obtain ⟨q, h1, h2⟩ := bind_ok h
  cases h2
  exact seq_n h1

theorem out_encode_n {t : Bool} {a : Net} {x : Batch} {e : Vecs} (h : output (encode t a x) = .ok e) : e.n = x.n ∧ e.d = a.d := by
  rw [out_encode] at h
  obtain ⟨y, h1, h⟩ := bind_ok h
  obtain ⟨v, h2, h3⟩ := bind_ok h
  exact ⟨(linear_n h3).1.trans ((flatten_n h2).trans (out_seq_n h1)), (linear_n h3).2⟩

theorem out_decode_n {t : Bool} {a : Net} {s : Vecs} {y : Batch} (h : output (decode t a s) = .ok y) : y.n = s.n := by
  rw [out_decode] at h
  obtain ⟨v, h1, h⟩ := bind_ok h
  obtain ⟨x, h2, h3⟩ := bind_ok h
  exact (out_seq_n h3).trans ((unflatten_n h2).trans (linear_n h1).1)

theorem encode_agree (t : Bool) (a : Net) {σ : Nat → Nat} {x x' : Batch} (h : x.Agree σ x') : Both (Vecs.Agree σ) (output (encode t a x)) (output (encode t a x')) := by
  rw [out_encode, out_encode]
  exact (seq_agree t a.encoder h).bind fun u v _ _ huv => (flatten_agree huv).bind fun w w' _ _ hww => linear_agree _ _ _ hww

theorem decode_agree (t : Bool) (a : Net) {σ : Nat → Nat} {s s' : Vecs} (h : s.Agree σ s') : Both (Batch.Agree σ) (output (decode t a s)) (output (decode t a s')) := by
  rw [out_decode, out_decode]
  exact (linear_agree _ _ _ h).bind fun v v' _ _ hv => (unflatten_agree 4 hv).bind fun y y' _ _ hy => seq_agree t a.decoder hy

theorem forward_agree (t : Bool) {σ : Nat → Nat} {blk : Blk} (a : Net) (hb : Respects σ a.d blk) {x x' : Batch} (h : x.Agree σ x') : Both (Seqs.Agree σ) (output (forward t blk a x)) (output (forward t blk a x')) := by
  rw [out_forward, out_forward, h.n]
  refine (encode_agree t a h).bind fun e e' h1 _ he => ?_
  obtain ⟨hen, hed⟩ := out_encode_n h1
  refine (hb e e' hed he).bind fun b b' _ _ ⟨hT, hv⟩ => ?_
  rw [hT]
  refine (rows_agree a.T a.d x.n b.1 h.order fun t n j g1 g2 g3 => hv t n j g1 (by omega) g3).bind fun s s' h2 _ hs => ?_
  exact (decode_agree t a hs).bind fun r r' h3 _ hr => sequences_agree x.n a.T ((out_decode_n h3).trans (rows_n h2)) hr

/-- C108: in both modes, if the samples of a batch are given in another order, the reconstructed sequences have this order and are otherwise the same, and an exception is the same; values of the images beyond their sizes have no
effect. -/
theorem C108_order (t : Bool) {chans f d T : Nat} (θ : Params) {σ : Nat → Nat} {blk : Blk} (hb : Respects σ d blk) {x x' : Batch} (h : x.Agree σ x') :
    (∀ e, forward t blk (Net.new chans f d T θ) x = .error e → forward t blk (Net.new chans f d T θ) x' = .error e) ∧
    ∀ r, forward t blk (Net.new chans f d T θ) x = .ok r → ∃ r', forward t blk (Net.new chans f d T θ) x' = .ok r' ∧ r'.1.n = r.1.n ∧ r'.1.t = r.1.t ∧
      ∀ k s y z, k < r.1.n → s < r.1.t → y < 28 → z < 28 → r'.1.val k s y z = r.1.val (σ k) s y z := by
  have key := forward_agree t (Net.new chans f d T θ) hb h
  constructor
  · intro e he
    rw [he] at key
    cases h2 : forward t blk (Net.new chans f d T θ) x' with
    | error e' =>
      rw [h2] at key
      rcases key with ⟨_, g1, g2⟩ | ⟨_, _, g1, _⟩
      · cases g1; cases g2; rfl
      · cases g1
    | ok r =>
      rw [h2] at key
      rcases key with ⟨_, _, g2⟩ | ⟨_, _, g1, _⟩
      · cases g2
      · cases g1
  · intro r hr
    rw [hr] at key
    cases h2 : forward t blk (Net.new chans f d T θ) x' with
    | error e' =>
      rw [h2] at key
      rcases key with ⟨_, g1, _⟩ | ⟨_, _, _, g2, _⟩
      · cases g1
      · cases g2
    | ok r' =>
      rw [h2] at key
      rcases key with ⟨_, g1, _⟩ | ⟨_, _, g1, g2, g3⟩
      · cases g1
      · cases g1; cases g2
        exact ⟨r', rfl, g3.n, g3.t, g3.val⟩

/-- C108: in evaluation mode the reconstructed sequence of a sample depends only on the pixels of the image of this sample, not on the other samples of the batch, their number or its position, if the block treats the samples
separately. -/
theorem C108_separate {chans f d T : Nat} (hf : 0 < f) (hd : 0 < d) {θ : Params} {blk : Blk} {net : (Nat → ℝ) → Nat → Nat → ℝ} (hb : Separate blk T net)
    (hl : ∀ u v : Nat → ℝ, (∀ j < d, u j = v j) → ∀ t < T, ∀ j < d, net u t j = net v t j) {x x' : Batch} {r r' : Seqs × Net}
    (h : forward false blk (Net.new chans f d T θ) x = .ok r) (h' : forward false blk (Net.new chans f d T θ) x' = .ok r') {k k' : Nat} (hsize : x.h = x'.h ∧ x.w = x'.w) (hk : k' < x'.n)
    (hval : ∀ c y z, c < chans → y < x.h → z < x.w → x.val k c y z = x'.val k' c y z) {t y z : Nat} (ht : t < T) (hy : y < 28) (hz : z < 28) : r.1.val k t y z = r'.1.val k' t y z := by
  have hloc : Respects id d blk := fun v v' hv hvv => by
    rw [hb v, hb v']
    refine .ok ⟨rfl, fun t n j ht hn hj => ?_⟩
    exact hl _ _ (fun i hi => hvv.val n i hn (by omega)) t ht j hj
  have hc' := ((C108_forward false hf hd θ (fun v => ⟨_, hb v⟩) x').1 ⟨_, h'⟩).1.1
  obtain ⟨g1, g2, -⟩ := C108_result hf hd (T' := T) (fun v => ⟨_, hb v⟩) (q := r'.1) (a := r'.2) h'
  obtain ⟨r'', e1, e2, e3, e4⟩ := (C108_order false (chans := chans) (f := f) (d := d) (T := T) θ hloc (x := x') (x' := ⟨x'.n, x'.c, x'.h, x'.w, fun n => if n = k' then x.val k else x'.val n⟩)
    ⟨Set.bijOn_id _, rfl, rfl, rfl, rfl, fun n c y z hn hc hy hz => by
      show (if n = k' then x.val k else x'.val n) c y z = x'.val n c y z
      by_cases hnk : n = k'
      · rw [if_pos hnk, hnk, hval c y z (by omega) (by omega) (by omega)]
      · rw [if_neg hnk]⟩).2 r' h'
  rw [show r'.1.val k' t y z = r'.1.val (id k') t y z from rfl, ← e4 k' t y z (by omega) (by omega) hy hz]
  exact separate_of_same hf hd hb h e1 hsize (show x.val k = if k' = k' then x.val k else x'.val k' by rw [if_pos rfl]) ht hy hz

/-! ## Convolutions and transposed convolutions -/

theorem reindex (k h c p : Nat) (G : Nat → Nat → ℝ) :
    ∑ u ∈ Finset.range k, (if p ≤ c + u ∧ c + u < h + p then G u (c + u - p) else 0) = ∑ U ∈ Finset.range h, if c ≤ U + p ∧ U + p < c + k then G (U + p - c) U else 0 := by
  rw [← Finset.sum_filter, ← Finset.sum_filter]
  refine Finset.sum_nbij' (fun u => c + u - p) (fun U => U + p - c) ?_ ?_ ?_ ?_ ?_
  · intro u hu
    simp only [Finset.mem_filter, Finset.mem_range] at hu ⊢
    omega
  · intro U hU
    simp only [Finset.mem_filter, Finset.mem_range] at hU ⊢
    omega
  · intro u hu
    simp only [Finset.mem_filter, Finset.mem_range] at hu
    omega
  · intro U hU
    simp only [Finset.mem_filter, Finset.mem_range] at hU
    omega
  · intro u hu
    simp only [Finset.mem_filter, Finset.mem_range] at hu
    rw [show c + u - p + p - c = u by omega]

theorem reindex2 (k h w c c' p : Nat) (W : Nat → Nat → ℝ) (x : Nat → Nat → ℝ) :
    ∑ u ∈ Finset.range k, ∑ v ∈ Finset.range k, W u v * at0 h w x ((c + u : Nat) - p) ((c' + v : Nat) - p) =
      ∑ U ∈ Finset.range h, ∑ V ∈ Finset.range w, if c ≤ U + p ∧ U + p < c + k ∧ c' ≤ V + p ∧ V + p < c' + k then W (U + p - c) (V + p - c') * x U V else 0 := by
  have e1 : ∀ u v, W u v * at0 h w x ((c + u : Nat) - p) ((c' + v : Nat) - p) = if p ≤ c + u ∧ c + u < h + p then (if p ≤ c' + v ∧ c' + v < w + p then W u v * x (c + u - p) (c' + v - p) else 0) else 0 := fun u v => by
    unfold at0
    by_cases h1 : p ≤ c + u ∧ c + u < h + p
    · by_cases h2 : p ≤ c' + v ∧ c' + v < w + p
      · rw [if_pos (by omega), if_pos h1, if_pos h2, show (((c + u : Nat) : Int) - p).toNat = c + u - p by omega, show (((c' + v : Nat) : Int) - p).toNat = c' + v - p by omega]
      · rw [if_neg (by omega), if_pos h1, if_neg h2, mul_zero]
    · rw [if_neg (by omega), if_neg h1, mul_zero]
  have e2 : ∀ u, ∑ v ∈ Finset.range k, W u v * at0 h w x ((c + u : Nat) - p) ((c' + v : Nat) - p) =
      if p ≤ c + u ∧ c + u < h + p then (fun u U => ∑ V ∈ Finset.range w, if c' ≤ V + p ∧ V + p < c' + k then W u (V + p - c') * x U V else 0) u (c + u - p) else 0 := fun u => by
    simp only [e1]
    by_cases h1 : p ≤ c + u ∧ c + u < h + p
    · simp only [if_pos h1]
      exact reindex k w c' p fun v V => W u v * x (c + u - p) V
    · simp only [if_neg h1, Finset.sum_const_zero]
  simp only [e2]
  rw [reindex k h c p fun u U => ∑ V ∈ Finset.range w, if c' ≤ V + p ∧ V + p < c' + k then W u (V + p - c') * x U V else 0]
  refine Finset.sum_congr rfl fun U _ => ?_
  by_cases h1 : c ≤ U + p ∧ U + p < c + k
  · rw [if_pos h1]
    refine Finset.sum_congr rfl fun V _ => ?_
    by_cases h2 : c' ≤ V + p ∧ V + p < c' + k
    · rw [if_pos h2, if_pos ⟨h1.1, h1.2, h2⟩]
    · rw [if_neg h2, if_neg (by omega)]
  · rw [if_neg h1]
    exact (Finset.sum_eq_zero fun V _ => if_neg (by omega)).symm

/-- C108: the transposed convolutions of the decoder are the transposes of convolutions: with the same weights and without biases, the inner product of a filtered image with another image is the inner product of the image with the
image filtered by the transposed convolution, for all sizes, strides and paddings. -/
theorem C108_transpose (i o k s p : Nat) (W : Nat → Nat → Nat → Nat → ℝ) (x g : Batch) (n : Nat) :
    ∑ b ∈ Finset.range o, ∑ y ∈ Finset.range g.h, ∑ z ∈ Finset.range g.w, convVal i k s p ⟨W, fun _ => 0⟩ x n b y z * g.val n b y z =
      ∑ a ∈ Finset.range i, ∑ u ∈ Finset.range x.h, ∑ v ∈ Finset.range x.w, x.val n a u v * convTVal o k s p ⟨W, fun _ => 0⟩ g n a u v := by
  have l : ∀ b y z, convVal i k s p ⟨W, fun _ => 0⟩ x n b y z * g.val n b y z = ∑ a ∈ Finset.range i, ∑ u ∈ Finset.range x.h, ∑ v ∈ Finset.range x.w,
      if s * y ≤ u + p ∧ u + p < s * y + k ∧ s * z ≤ v + p ∧ v + p < s * z + k then W b a (u + p - s * y) (v + p - s * z) * x.val n a u v * g.val n b y z else 0 := fun b y z => by
    unfold convVal
    rw [zero_add, Finset.sum_mul]
    refine Finset.sum_congr rfl fun a _ => ?_
    rw [reindex2 k x.h x.w (s * y) (s * z) p (W b a) (x.val n a), Finset.sum_mul]
    refine Finset.sum_congr rfl fun u _ => ?_
    rw [Finset.sum_mul]
    refine Finset.sum_congr rfl fun v _ => ?_
    rw [ite_mul, zero_mul]
  have r : ∀ a u v, x.val n a u v * convTVal o k s p ⟨W, fun _ => 0⟩ g n a u v = ∑ b ∈ Finset.range o, ∑ y ∈ Finset.range g.h, ∑ z ∈ Finset.range g.w,
      if s * y ≤ u + p ∧ u + p < s * y + k ∧ s * z ≤ v + p ∧ v + p < s * z + k then W b a (u + p - s * y) (v + p - s * z) * x.val n a u v * g.val n b y z else 0 := fun a u v => by
    unfold convTVal
    rw [zero_add, Finset.mul_sum]
    refine Finset.sum_congr rfl fun b _ => ?_
    rw [Finset.mul_sum]
    refine Finset.sum_congr rfl fun y _ => ?_
    rw [Finset.mul_sum]
    refine Finset.sum_congr rfl fun z _ => ?_
    rw [mul_ite, mul_zero]
    refine if_congr Iff.rfl ?_ rfl
    ring
  simp only [l, r]
  have sw : ∀ (A : Nat) (F : Nat → Nat → Nat → Nat → ℝ), ∑ b ∈ Finset.range o, ∑ y ∈ Finset.range g.h, ∑ z ∈ Finset.range g.w, ∑ a ∈ Finset.range A, F b y z a = ∑ a ∈ Finset.range A, ∑ b ∈ Finset.range o, ∑ y ∈ Finset.range g.h, ∑ z ∈ Finset.range g.w, F b y z a := fun A F => by
    exact (Finset.sum_comm.trans (Finset.sum_congr rfl fun b _ => Finset.sum_comm.trans (Finset.sum_congr rfl fun y _ => Finset.sum_comm))).symm
  rw [sw i]
  refine Finset.sum_congr rfl fun a _ => ?_
  rw [sw x.h]
  refine Finset.sum_congr rfl fun u _ => ?_
  rw [sw x.w]

/-! ## Batch normalisation -/

/-- C108: in training mode a batch normalisation gives every channel the mean of its offset and the variance `g ^ 2 v / (v + 1e-5)`, with the gain `g` and the variance `v` of the channel before. -/
theorem C108_normalised (ν : Norm) (x : Batch) (hx : 2 ≤ x.n * x.h * x.w) :
    ∃ y ν', batchNorm true x.c ν x = .ok (y, ν') ∧ ∀ c, channelMean y c = ν.offset c ∧
      channelSq y c / (x.n * x.h * x.w : Nat) = ν.gain c ^ 2 * (channelSq x c / (x.n * x.h * x.w : Nat)) / (channelSq x c / (x.n * x.h * x.w : Nat) + 1 / 100000) := by
  refine ⟨_, _, by rw [batchNorm, if_neg (by omega), if_neg (by simp), if_pos rfl], fun c => ?_⟩
  have h0 : ((x.n * x.h * x.w : Nat) : ℝ) ≠ 0 := by exact_mod_cast (by omega : x.n * x.h * x.w ≠ 0)
  set N : ℝ := ((x.n * x.h * x.w : Nat) : ℝ) with hN
  set v : ℝ := channelSq x c / N with hv
  have hv0 : 0 ≤ v := div_nonneg (channelSq_nonneg x c) (Nat.cast_nonneg _)
  have hs : ∀ (F : Nat → Nat → Nat → ℝ) (a b : ℝ), channelSum x (fun n y z => F n y z * a + b) = channelSum x F * a + N * b := fun F a b => by
    unfold channelSum
    simp only [Finset.sum_add_distrib, Finset.sum_const, Finset.card_range, nsmul_eq_mul, ← Finset.sum_mul]
    rw [hN]
    push_cast
    ring
  have hm : channelSum x (fun n y z => x.val n c y z) = N * channelMean x c := by
    unfold channelMean
    rw [mul_div_cancel₀ _ h0]
  have hp : 0 < v + 1 / 100000 := by positivity
  have hmean : channelMean (normalise ν (channelMean x) (fun c => channelSq x c / N) x) c = ν.offset c := by
    show channelSum x (fun n y z => (x.val n c y z - channelMean x c) / √(v + 1 / 100000) * ν.gain c + ν.offset c) / N = _
    rw [show (fun n y z => (x.val n c y z - channelMean x c) / √(v + 1 / 100000) * ν.gain c + ν.offset c) =
      fun n y z => x.val n c y z * (ν.gain c / √(v + 1 / 100000)) + (ν.offset c - channelMean x c * (ν.gain c / √(v + 1 / 100000))) from funext fun n => funext fun y => funext fun z => by ring, hs, hm]
    rw [div_eq_iff h0]
    ring
  refine ⟨hmean, ?_⟩
  show channelSum (normalise ν (channelMean x) (fun c => channelSq x c / N) x) (fun n y z => ((normalise ν (channelMean x) (fun c => channelSq x c / N) x).val n c y z -
    channelMean (normalise ν (channelMean x) (fun c => channelSq x c / N) x) c) ^ 2) / N = _
  rw [hmean]
  show channelSum x (fun n y z => ((x.val n c y z - channelMean x c) / √(v + 1 / 100000) * ν.gain c + ν.offset c - ν.offset c) ^ 2) / N = _
  rw [show (fun n y z => ((x.val n c y z - channelMean x c) / √(v + 1 / 100000) * ν.gain c + ν.offset c - ν.offset c) ^ 2) =
    fun n y z => (x.val n c y z - channelMean x c) ^ 2 * (ν.gain c ^ 2 / (v + 1 / 100000)) + 0 from funext fun n => funext fun y => funext fun z => by
      rw [add_sub_cancel_right, mul_pow, div_pow, Real.sq_sqrt hp.le, add_zero]
      ring, hs (fun n y z => (x.val n c y z - channelMean x c) ^ 2)]
  show (channelSq x c * (ν.gain c ^ 2 / (v + 1 / 100000)) + N * 0) / N = ν.gain c ^ 2 * v / (v + 1 / 100000)
  rw [hv, mul_zero, add_zero]
  ring

/-! ## Cases -/

theorem still_respects (σ : Nat → Nat) (d : Nat) : Respects σ d still := fun v v' hv h => .ok ⟨rfl, fun _ n j _ hn hj => h.val n j hn (by omega)⟩

/-- The images `two` in the other order and with other values beyond their sizes. -/
def swapped : Batch := ⟨2, 1, 28, 28, fun n c y z => if 28 ≤ y then 5 else two.val (1 - n) c y z⟩

theorem two_swapped : two.Agree (fun n => 1 - n) swapped := by
  refine ⟨⟨fun n _ => ?_, fun n hn m hm e => ?_, fun n hn => ⟨1 - n, ?_, ?_⟩⟩, rfl, rfl, rfl, rfl, fun _ _ y _ _ _ hy _ => if_neg (by have : y < 28 := hy; omega)⟩
  · show 1 - n < 2
    omega
  · have h1 : n < 2 := hn
    have h2 : m < 2 := hm
    have h3 : 1 - n = 1 - m := e
    omega
  · show 1 - n < 2
    omega
  · have h1 : n < 2 := hn
    show 1 - (1 - n) = n
    omega

/-- The images differ, and in training mode the sequences are exchanged. -/
example (θ : Params) : two.val 0 0 0 0 ≠ two.val 1 0 0 0 ∧ ∃ r r', forward true still (Net.new 1 8 20 16 θ) two = .ok r ∧ forward true still (Net.new 1 8 20 16 θ) swapped = .ok r' ∧ r'.1.val 1 3 4 5 = r.1.val 0 3 4 5 := by
  refine ⟨by simp [two], ?_⟩
  obtain ⟨r, hr⟩ := (C108_forward true (chans := 1) (f := 8) (d := 20) (T := 16) (by decide) (by decide) θ (fun v => ⟨_, still_separate v⟩) two).2 ⟨two_fits, by decide, by decide, by decide, rfl⟩
  obtain ⟨h1, h2, -⟩ := C108_result (by decide) (by decide) (T' := 16) (fun v => ⟨_, still_separate v⟩) (q := r.1) (a := r.2) hr
  obtain ⟨r', hr', -, -, h⟩ := (C108_order true θ (still_respects _ 20) two_swapped).2 r hr
  exact ⟨r, r', hr, hr', h 1 3 4 5 (by rw [h1]; decide) (by rw [h2]; decide) (by decide) (by decide)⟩

/-- A channel with the two values 0 and 2 gets the mean 3. -/
example : ∃ y ν', batchNorm true 1 ⟨fun _ => 5, fun _ => 3, fun _ => 0, fun _ => 1⟩ ⟨2, 1, 1, 1, fun n _ _ _ => 2 * n⟩ = .ok (y, ν') ∧ channelMean y 0 = 3 := by
  obtain ⟨y, ν', h, g⟩ := C108_normalised ⟨fun _ => 5, fun _ => 3, fun _ => 0, fun _ => 1⟩ ⟨2, 1, 1, 1, fun n _ _ _ => 2 * n⟩ (by decide)
  exact ⟨y, ν', h, (g 0).1⟩

/-- The image at position 0 of a batch and at position 1 of another batch. -/
example (θ : Params) {x : Batch} (hx : Fitting 1 x) (hn : 2 ≤ x.n) (hs : x.h = 28 ∧ x.w = 28) (hv : ∀ c y z, c < 1 → y < 28 → z < 28 → x.val 0 c y z = two.val 1 c y z) :
    ∃ r r', forward false still (Net.new 1 8 20 16 θ) x = .ok r ∧ forward false still (Net.new 1 8 20 16 θ) two = .ok r' ∧ r.1.val 0 3 4 5 = r'.1.val 1 3 4 5 := by
  obtain ⟨r, hr⟩ := (C108_forward false (chans := 1) (f := 8) (d := 20) (T := 16) (by decide) (by decide) θ (fun v => ⟨_, still_separate v⟩) x).2 ⟨hx, hn, by decide, by decide, rfl⟩
  obtain ⟨r', hr'⟩ := (C108_forward false (chans := 1) (f := 8) (d := 20) (T := 16) (by decide) (by decide) θ (fun v => ⟨_, still_separate v⟩) two).2 ⟨two_fits, by decide, by decide, by decide, rfl⟩
  exact ⟨r, r', hr, hr', C108_separate (by decide) (by decide) still_separate (fun u v h t _ j hj => h j hj) hr hr' ⟨hs.1, hs.2⟩ (by decide) (fun c y z h1 h2 h3 => hv c y z h1 (by omega) (by omega)) (by decide) (by decide) (by decide)⟩

end Verif.Autoencoder
