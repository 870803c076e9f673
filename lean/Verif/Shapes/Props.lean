import Verif.Shapes.Lemmas

/-!
# C58: sizes of states, derivatives and initial data

For which options the particles of a model class can be evolved (their derivatives have their sizes), and for which data.
-/

namespace Verif.Shapes
open Verif Verif.Init

theorem stateShapes_vec (cls : Cls) (hv : cls.isVector = true) (c : Cfg) (m n : Nat) (hs : c.particleSize = .num m) :
    stateShapes cls c n = .ok (vec cls [n, 1, 1] [n] c.particleDimension m c.inflation) := by
  cases cls <;> simp only [Cls.isVector, Bool.false_eq_true] at hv <;>
    simp [stateShapes, vec, hs, Init.sizeOf, times, bind, Except.bind]

/-- **C58** For the classes for vectors, particles can be created for every number of particles and all sizes, and their
derivatives have the sizes of the particles exactly if `in_features` is the particle size and, for the symmetrized and the optimal transport model,
the inflation factor is one. -/
theorem C58_particles_vector (cls : Cls) (hv : cls.isVector = true) (c : Cfg) (m n : Nat) (hs : c.particleSize = .num m)
    (hm : 0 < m) (hi : 0 < c.inflation) :
    ∃ st, stateShapes cls c n = .ok st ∧
      (rhsShapes cls c st = .ok (dots st) ↔
        c.inFeatures = m ∧ (cls = .symmetrized ∨ cls = .optimalTransport → c.inflation = 1)) := by
  refine ⟨_, stateShapes_vec cls hv c m n hs, ?_⟩
  exact dots_vec_rhs cls hv c [n, 1, 1] [n] c.particleDimension m hm hi fun k => bcast_ones n [c.particleDimension, k]

/-- non-vacuous: the default inflation factor of five -/
example : stateShapes .upDown ⟨2, 1, .num 2, 5, 3⟩ 4 = .ok [("q1", [4, 1, 2]), ("q2", [4, 1, 10])]
    ∧ rhsShapes .upDown ⟨2, 1, .num 2, 5, 3⟩ [("q1", [4, 1, 2]), ("q2", [4, 1, 10])] = .ok [("dot_q1", [4, 1, 2]), ("dot_q2", [4, 1, 10])] := by
  decide +kernel

/-- **C58** (negative part) With the default inflation factor of five the symmetrized model returns a derivative of `q3` that is five times
too wide: an evolution step raises. -/
theorem C58_symmetrized_default_wrong (c : Cfg) (m n : Nat) (hs : c.particleSize = .num m) (hf : c.inFeatures = m) :
    ∃ st dt, stateShapes .symmetrized c n = .ok st ∧ rhsShapes .symmetrized c st = .ok dt ∧
      SDict.get? st "q3" = some [n, c.particleDimension, m] ∧ SDict.get? dt "dot_q3" = some [n, c.particleDimension, m * c.inflation] := by
  refine ⟨_, [("dot_q1", [n, c.particleDimension, m]), ("dot_q2", [n, c.particleDimension, m * c.inflation]),
    ("dot_q3", [n, c.particleDimension, m * c.inflation])], stateShapes_vec .symmetrized rfl c m n hs, ?_, rfl, rfl⟩
  have h := linear_two [n] c.particleDimension
  simp only [List.cons_append, List.nil_append] at h
  subst hf
  simp [rhsShapes, vec, look, SDict.get?, h, bind, Except.bind]

theorem stateShapes_img (cls : Cls) (hv : cls.isVector = false) (c : Cfg) (l : List Nat) (n : Nat) (hs : c.particleSize = .seq l) :
    stateShapes cls c n = .ok (img cls n c.particleDimension c.inflation l) := by
  cases cls <;> simp only [Cls.isVector, Bool.true_eq_false] at hv <;>
    simp [stateShapes, img, hs, Init.sizeOf, bind, Except.bind]

/-- **C58** For the convolutional classes: particles can be created for every sequence of positive sizes, and their derivatives have the sizes of the
particles exactly if the particles are images (two sizes), the filter size is three and `in_features` is the particle dimension. -/
theorem C58_particles_conv (cls : Cls) (hv : cls.isVector = false) (c : Cfg) (l : List Nat) (n : Nat) (hs : c.particleSize = .seq l)
    (hl : ∀ x ∈ l, 0 < x) (hi : 0 < c.inflation) :
    ∃ st, stateShapes cls c n = .ok st ∧
      (rhsShapes cls c st = .ok (dots st) ↔ l.length = 2 ∧ c.filterSize = 3 ∧ c.inFeatures = c.particleDimension) :=
  ⟨_, stateShapes_img cls hv c l n hs, dots_img_rhs cls hv c n c.particleDimension l hl hi⟩

/-- non-vacuous -/
example : stateShapes .upDownConv ⟨2, 2, .seq [7, 5], 3, 3⟩ 4 = .ok [("q1", [4, 2, 7, 5]), ("q2", [4, 6, 7, 5])]
    ∧ rhsShapes .upDownConv ⟨2, 2, .seq [7, 5], 3, 3⟩ [("q1", [4, 2, 7, 5]), ("q2", [4, 6, 7, 5])]
      = .ok [("dot_q1", [4, 2, 7, 5]), ("dot_q2", [4, 6, 7, 5])] := by decide +kernel

/-- **C58** A particle size of the wrong kind is refused: a sequence by the classes for vectors (`TypeError`), a number by the convolutional ones
(`ValueError`). -/
theorem C58_particle_size_kind (cls : Cls) (c : Cfg) (n : Nat) :
    (cls.isVector = true → ∀ l, c.particleSize = .seq l → stateShapes cls c n = .error .typeError)
    ∧ (cls.isVector = false → ∀ m, c.particleSize = .num m → stateShapes cls c n = .error .valueError) := by
  constructor <;> intro hv x hx <;> cases cls <;> simp [Cls.isVector] at hv <;> simp [stateShapes, hx, Init.sizeOf, bind, Except.bind]

/-! ## Data -/

variable {α : Type} [Zero α]

/-- **C58** For the classes for vectors: data `x` with any positive number of leading dimensions, the particle dimension and the particle
size gives a dictionary with the keys of the particles in which `q1` is `x` itself, for every way of starting the other entries and whatever
was learned; its derivatives have its sizes.  If `x` has one leading dimension of size `N`, its sizes are those of `N` particles. -/
theorem C58_data_vector (cls : Cls) (hv : cls.isVector = true) (c : Cfg) (m n : Nat) (rest : List Nat) (md : Mode) (l : Learned α) (x : Tensor α)
    (hs : c.particleSize = .num m) (hf : c.inFeatures = m) (hm : 0 < m) (hi : 0 < c.inflation)
    (h1 : cls = .symmetrized ∨ cls = .optimalTransport → c.inflation = 1)
    (hx : x.shape = n :: rest ++ [c.particleDimension, m]) :
    ∃ d, initialData cls c md l x = .ok d ∧ SDict.get? d "q1" = some x ∧
      (∀ k st, stateShapes cls c k = .ok st → SDict.keys d = SDict.keys st) ∧
      rhsShapes cls c (sizes d) = .ok (dots (sizes d)) ∧
      (rest = [] → stateShapes cls c n = .ok (sizes d)) := by
  have hz : zerosRepeat (x.shape.length - 1) c.inflation x = .ok (zeros ((n :: rest) ++ [c.particleDimension, m * c.inflation]) : Tensor α) := by
    have hlen : (n :: rest ++ [c.particleDimension, m]).length - 1 = ((n :: rest) ++ [c.particleDimension]).length := by simp
    have hre : n :: rest ++ [c.particleDimension, m] = ((n :: rest) ++ [c.particleDimension]) ++ [m] := by simp
    have hget : (n :: rest ++ [c.particleDimension, m])[((n :: rest) ++ [c.particleDimension]).length]? = some m := by
      rw [hre]; simp
    have hset : (n :: rest ++ [c.particleDimension, m]).set ((n :: rest) ++ [c.particleDimension]).length (m * c.inflation)
        = (n :: rest) ++ [c.particleDimension, m * c.inflation] := by
      rw [hre, List.set_append_right _ _ (le_refl _)]
      simp
    simp only [zerosRepeat, hx, hlen, hget, hset]
  have hst : ∃ q2, startQ2 c md l x = .ok q2 ∧ q2.shape = (n :: rest) ++ [c.particleDimension, m * c.inflation] := by
    have hlin : ∀ d i o, linear i o (n :: (rest ++ [d, i])) = .ok (n :: (rest ++ [d, o])) := fun d i o => by
      have := linear_two (n :: rest) d i i o
      simpa using this
    cases md with
    | zero => exact ⟨_, hz, rfl⟩
    | direct => 
      have htk : x.shape.take (x.shape.length - 2) = n :: rest := by
        rw [hx]
        have : (n :: rest ++ [c.particleDimension, m]).length - 2 = (n :: rest).length := by simp
        rw [this, List.take_left]
      simp only [startQ2, direct, hs, times, htk]
      exact ⟨_, rfl, rfl⟩
    | linear =>
      simp [startQ2, apply, hx, hf, hlin, bind, Except.bind]
    | miniNN =>
      simp [startQ2, apply, hx, hf, hlin, bind, Except.bind]
  obtain ⟨q2, hq2, hsh⟩ := hst
  have hrep : c.inflation = 1 → ∃ y, repeatLast c.inflation x = .ok y ∧ y.shape = n :: rest ++ [c.particleDimension, m * c.inflation] := by
    intro h
    have hre : x.shape = ((n :: rest) ++ [c.particleDimension]) ++ [m] := by rw [hx]; simp
    have hl : x.shape.getLast? = some m := by rw [hre, List.getLast?_append]; rfl
    have hd : x.shape.dropLast = n :: rest ++ [c.particleDimension] := by rw [hre, List.dropLast_concat]
    simp [repeatLast, hl, hd]
  have key : ∃ d, initialData cls c md l x = .ok d ∧ SDict.get? d "q1" = some x ∧
      sizes d = vec cls (n :: List.replicate (rest.length + 2) 1) (n :: rest) c.particleDimension m c.inflation := by
    cases cls <;> simp only [Cls.isVector, Bool.false_eq_true] at hv
    case symmetrized =>
      obtain ⟨y, hy, hys⟩ := hrep (h1 (by simp))
      simp only [initialData, hy, bind, Except.bind]
      refine ⟨_, rfl, rfl, ?_⟩
      simp only [sizes, vec, List.map, hys, hx]
    all_goals
      simp only [initialData, hz, hq2, bind, Except.bind]
      first
        | refine ⟨_, rfl, rfl, ?_⟩
        | (rw [hx]; refine ⟨_, rfl, rfl, ?_⟩)
      simp [sizes, vec, zeros, hx, hsh]
  obtain ⟨d, hd, hq, hsz⟩ := key
  have hkeys : SDict.keys d = SDict.keys (sizes d) := by simp [SDict.keys, sizes, Function.comp_def]
  refine ⟨d, hd, hq, ?_, ?_, ?_⟩
  · intro k st hk
    rw [stateShapes_vec cls hv c m k hs] at hk
    cases hk
    rw [hkeys, hsz]
    cases cls <;> simp only [Cls.isVector, Bool.false_eq_true] at hv <;> rfl
  · rw [hsz]
    refine (dots_vec_rhs cls hv c _ (n :: rest) c.particleDimension m hm hi ?_).2 ⟨hf, h1⟩
    intro k
    have := bcast_ones n (rest ++ [c.particleDimension, k])
    simpa using this
  · intro hr
    subst hr
    rw [stateShapes_vec cls hv c m n hs, hsz]
    rfl

/-- non-vacuous: trajectories of 2 samples with 3 time points, `direct` mode, inflation factor two -/
example : (initialData .general ⟨2, 1, .num 2, 2, 3⟩ .direct ⟨[1, 2, 3, 4], fun _ => [], fun _ => []⟩ ⟨[2, 3, 1, 2], List.range 12⟩ : Py _)
    = .ok [("q1", ⟨[2, 3, 1, 2], List.range 12⟩), ("q2", ⟨[2, 3, 1, 4], (List.replicate 6 [1, 2, 3, 4]).flatten⟩)] := by
  decide +kernel

/-- **C58** For the convolutional classes without trainable initial conditions: images with the particle dimension as channels
give a dictionary with the keys of the particles in which `q1` is the data; its sizes are those of particles (of the size of the image) and its derivatives fit. -/
theorem C58_data_conv (cls : Cls) (hv : cls.isVector = false) (c : Cfg) (n h w : Nat) (l : Learned α) (x : Tensor α)
    (hs : c.particleSize = .seq [h, w]) (hf : c.inFeatures = c.particleDimension) (h3 : c.filterSize = 3) (hh : 0 < h) (hw : 0 < w)
    (hi : 0 < c.inflation) (hx : x.shape = [n, c.particleDimension, h, w]) :
    ∃ d, initialData cls c .zero l x = .ok d ∧ SDict.get? d "q1" = some x ∧ stateShapes cls c n = .ok (sizes d) ∧
      rhsShapes cls c (sizes d) = .ok (dots (sizes d)) := by
  have key : ∃ d, initialData cls c .zero l x = .ok d ∧ SDict.get? d "q1" = some x ∧
      sizes d = img cls n c.particleDimension c.inflation [h, w] := by
    cases cls <;> simp only [Cls.isVector, Bool.true_eq_false] at hv <;>
      simp [initialData, zerosRepeat, hx, bind, Except.bind, sizes, zeros, img, SDict.get?]
  obtain ⟨d, hd, hq, hsz⟩ := key
  refine ⟨d, hd, hq, ?_, ?_⟩
  · rw [stateShapes_img cls hv c _ n hs, hsz]
  · rw [hsz]
    exact (dots_img_rhs cls hv c n c.particleDimension [h, w] (by simp [hh, hw]) hi).2 ⟨rfl, h3, hf⟩

/-- non-vacuous -/
example : (initialData .upDownConv ⟨1, 1, .seq [2, 2], 2, 3⟩ .zero ⟨[], fun _ => [], fun _ => []⟩ ⟨[1, 1, 2, 2], [1, 2, 3, 4]⟩ : Py _)
    = .ok [("q1", ⟨[1, 1, 2, 2], [1, 2, 3, 4]⟩), ("q2", ⟨[1, 2, 2, 2], List.replicate 8 (0 : Nat)⟩)] := by
  decide +kernel

/-- **C58** (negative part) The convolutional up-down model with trainable initial conditions.  `linear`: the computed start is thrown away
and the data itself becomes `q2`, whatever was learned; it has the size of the particles' `q2` only if the inflation factor is one.
`mini_nn`: the images shrink by one pixel in each direction, so that the sizes never fit. -/
theorem C58_upDownConv_trainable (c : Cfg) (n h w : Nat) (l : Learned α) (x : Tensor α) (hd : 0 < c.particleDimension) (hh : 0 < h) (hw : 0 < w)
    (hs : c.particleSize = .seq [h, w]) (hx : x.shape = [n, c.particleDimension, h, w]) :
    initialData .upDownConv c .linear l x = .ok [("q1", x), ("q2", x)]
    ∧ (stateShapes .upDownConv c n = .ok (sizes [("q1", x), ("q2", x)]) ↔ c.inflation = 1)
    ∧ ∀ d, initialData .upDownConv c .miniNN l x = .ok d → stateShapes .upDownConv c n ≠ .ok (sizes d) := by
  refine ⟨?_, ?_, ?_⟩
  · have h1 : 1 ≤ h := hh
    have h2 : 1 ≤ w := hw
    simp [initialData, apply, conv, hx, bind, Except.bind, h1, h2]
  · rw [stateShapes_img .upDownConv rfl c _ n hs]
    simp only [img, sizes, List.map, hx]
    constructor
    · intro h
      simp at h
      exact Nat.eq_of_mul_eq_mul_left hd (by omega)
    · intro h; simp [h]
  · intro d hd'
    have h1 : 1 ≤ h := hh
    have h2 : 1 ≤ w := hw
    simp only [initialData, apply, hx, bind, Except.bind, conv] at hd'
    simp [h1, h2] at hd'
    split at hd'
    · simp at hd'
    · rename_i heq
      by_cases hc : 2 ≤ h ∧ 2 ≤ w
      · rw [if_pos hc] at heq
        dsimp only at heq
        cases heq
        cases hd'
        rw [stateShapes_img .upDownConv rfl c _ n hs]
        intro he
        simp [img, sizes, hx] at he
        omega
      · rw [if_neg hc] at heq
        simp at heq

/-- **C58** Which starts can be asked for: an unknown name is refused with `ValueError` by the classes that know the option, `direct`
also by the convolutional up-down model; all other classes ignore the option and start at zero. -/
theorem C58_modes (cls : Cls) (s : String) :
    modeOf cls false s = .ok .zero
    ∧ (modeOf cls true s = .error .valueError ↔
        (cls ∈ [Cls.upDown, .universal, .general, .periodic] ∧ s ∉ ["direct", "linear", "mini_nn"])
        ∨ (cls = .upDownConv ∧ s ∉ ["linear", "mini_nn"])) := by
  constructor
  · cases cls <;> rfl
  · by_cases h1 : s = "direct"
    · subst h1; cases cls <;> decide
    · by_cases h2 : s = "linear"
      · subst h2; cases cls <;> decide
      · by_cases h3 : s = "mini_nn"
        · subst h3; cases cls <;> decide
        · cases cls <;> simp [modeOf, h1, h2, h3]

/-- **C58** Without trainable initial conditions everything but the data itself starts at zero (in the symmetrized model: at copies
of the data). -/
theorem C58_zero_start (cls : Cls) (hc : cls ≠ .symmetrized) (c : Cfg) (l : Learned α) (x : Tensor α) (d : SDict String (Tensor α))
    (h : initialData cls c .zero l x = .ok d) (k : String) (hk : k ≠ "q1") (t : Tensor α) (ht : SDict.get? d k = some t) :
    t = zeros t.shape := by
  have hz : ∀ a b (y : Tensor α), zerosRepeat a b x = .ok y → y = zeros y.shape := by
    intro a b y hy
    unfold zerosRepeat at hy
    split at hy <;> simp at hy
    subst hy; rfl
  cases cls <;> simp only [initialData, startQ2, bind, Except.bind] at h
  case symmetrized => exact absurd rfl hc
  case simple =>
    cases h
    simp [SDict.get?, hk.symm] at ht
  case dampenedUpDown =>
    split at h
    · simp at h
    · rename_i y hy
      split at h
      · simp at h
      · cases h
        simp only [SDict.get?] at ht
        split at ht
        · cases ht; rfl
        · split at ht
          · cases ht; rfl
          · rw [if_neg hk.symm] at ht
            split at ht
            · cases ht; exact hz _ _ _ hy
            · simp at ht
  all_goals
    first
      | (cases h
         simp only [SDict.get?, if_neg hk.symm] at ht
         split at ht
         · cases ht; rfl
         · simp at ht)
      | (split at h
         · simp at h
         · rename_i y hy
           cases h
           simp only [SDict.get?, if_neg hk.symm] at ht
           split at ht
           · cases ht; exact hz _ _ _ hy
           · simp at ht)

end Verif.Shapes
