import Verif.Chunks.Lemmas
import Mathlib.Data.List.Chain
import Mathlib.Algebra.Group.Int.Defs
import Mathlib.Algebra.Order.Ring.Int

/-!
# C45, C46: chunks of times, predictions chunk by chunk
-/

namespace Verif.Chunks
open Verif

variable {σ τ Y P : Type}

/-! ## C45 -/

/-- C45: with a chunk size of at least two, cutting terminates; every chunk starts at the last point of the previous one, together the chunks cover
every time point in order, none is longer than requested, all but the last one have exactly the requested size, and no chunk is a
single point. -/
theorem C45_chunks (t : List τ) (chunk : Int) (hc : 2 ≤ chunk) (fuel : Nat) (hf : t.length < fuel) :
    ∃ out, getTimeChunks fuel t chunk false = some out ∧ out ≠ [] ∧ glue out = t ∧ out.IsChain Overlap ∧ (∀ c ∈ out, (c.length : Int) ≤ chunk) ∧
      (∀ c ∈ out.dropLast, (c.length : Int) = chunk) ∧ (2 ≤ t.length → ∀ c ∈ out, 2 ≤ c.length) := by
  obtain ⟨c, rfl⟩ : ∃ c : Nat, chunk = c := ⟨chunk.toNat, by omega⟩
  have hc' : 2 ≤ c := by omega
  refine ⟨(windows c t.length fuel 0).map (chunkAt t false), ?_, ?_, ?_, ?_, ?_, ?_, ?_⟩
  · unfold getTimeChunks
    rw [if_neg (by omega), Int.toNat_natCast, whileLoop_windows t c hc' false fuel 0 [] (by omega) (by omega)]
    rfl
  · obtain ⟨m, ws, h, _⟩ := windows_head c t.length fuel 0 (by omega) (by omega)
    rw [h]
    simp
  · rw [windows_glue t c fuel 0 (by omega) (by omega) hc', slice_all]
  · rw [List.isChain_map]
    refine (windows_overlap c t.length fuel 0 (by omega) hc').imp ?_
    rintro w v ⟨h1, h2, h3, hw', hv'⟩
    refine ⟨t[v.1], ?_, ?_⟩
    · show (slice t w.1 (w.1 + w.2)).getLast? = _
      rw [slice_getLast? t _ _ (by omega) (by omega), ← List.getElem?_eq_getElem (by omega)]
      congr 1
      omega
    · show (slice t v.1 (v.1 + v.2)).head? = _
      rw [slice_head? t _ _ (by omega), ← List.getElem?_eq_getElem (by omega)]
  · intro x hx
    obtain ⟨w, hw, rfl⟩ := List.mem_map.1 hx
    have := windows_inside c t.length fuel 0 (by omega) (by omega) w hw
    rw [chunkAt_length t false w this.1]
    omega
  · intro x hx
    rw [← List.map_dropLast] at hx
    obtain ⟨w, hw, rfl⟩ := List.mem_map.1 hx
    have h1 := windows_inside c t.length fuel 0 (by omega) (by omega) w (List.dropLast_subset _ hw)
    rw [chunkAt_length t false w h1.1, windows_full c t.length fuel 0 (by omega) hc' w hw]
  · intro h2 x hx
    obtain ⟨w, hw, rfl⟩ := List.mem_map.1 hx
    have := windows_inside c t.length fuel 0 (by omega) (by omega) w hw
    rw [chunkAt_length t false w this.1]
    exact windows_two c t.length fuel 0 (by omega) hc' w hw

/-- C45: with `start_time_chunk_from_zero` each chunk is replaced by as many of the first times. -/
theorem C45_from_zero (t : List τ) (chunk : Int) (hc : 2 ≤ chunk) (fuel : Nat) (hf : t.length < fuel) :
    ∃ out, getTimeChunks fuel t chunk false = some out ∧ getTimeChunks fuel t chunk true = some (out.map fun c => t.take c.length) := by
  obtain ⟨c, rfl⟩ : ∃ c : Nat, chunk = c := ⟨chunk.toNat, by omega⟩
  have hc' : 2 ≤ c := by omega
  have hz : ∀ z, getTimeChunks fuel t (c : Int) z = some ((windows c t.length fuel 0).map (chunkAt t z)) := by
    intro z
    unfold getTimeChunks
    rw [if_neg (by omega), Int.toNat_natCast, whileLoop_windows t c hc' z fuel 0 [] (by omega) (by omega)]
    rfl
  refine ⟨_, hz false, ?_⟩
  rw [hz true, List.map_map]
  congr 1
  apply List.map_congr_left
  intro w hw
  have := windows_inside c t.length fuel 0 (by omega) (by omega) w hw
  show chunkAt t true w = t.take (chunkAt t false w).length
  rw [chunkAt_length t false w this.1]
  unfold chunkAt slice
  simp

/-- C45: a chunk size that is not positive means no cutting. -/
theorem C45_whole (t : List τ) (chunk : Int) (hc : chunk ≤ 0) (fuel : Nat) (z : Bool) : getTimeChunks fuel t chunk z = some [t] := by
  unfold getTimeChunks
  rw [if_pos hc]

/-- The result does not depend on the fuel. -/
theorem C45_fuel (t : List τ) (chunk : Int) (z : Bool) (fuel fuel' : Nat) (out : List (List τ)) (h : getTimeChunks fuel t chunk z = some out)
    (hf : fuel ≤ fuel') : getTimeChunks fuel' t chunk z = some out := by
  unfold getTimeChunks at h ⊢
  by_cases hc : chunk ≤ 0
  · rw [if_pos hc] at h ⊢; exact h
  · rw [if_neg hc] at h ⊢
    exact whileLoop_mono t _ z fuel _ out h fuel' hf

/-- C45: cutting terminates for exactly these sizes: it does not for chunks of one point (unless there is at most one time). -/
theorem C45_terminates_iff (t : List τ) (chunk : Int) (z : Bool) : (∃ fuel out, getTimeChunks fuel t chunk z = some out) ↔ chunk ≠ 1 ∨ t.length ≤ 1 := by
  constructor
  · rintro ⟨fuel, out, h⟩
    by_contra hn
    rw [not_or] at hn
    obtain ⟨h1, h2⟩ := hn
    have h1 : chunk = 1 := by omega
    subst h1
    unfold getTimeChunks at h
    rw [if_neg (by decide)] at h
    have key : ∀ (fuel : Nat) (acc : List (List τ)), whileLoop t 1 z fuel ⟨0, acc, true⟩ = none := by
      intro fuel
      induction fuel with
      | zero => intro acc; rfl
      | succ fuel ih =>
        intro acc
        rw [whileLoop, if_pos rfl, body_go t 1 z 0 acc (by omega)]
        exact ih _
    rw [show (1 : Int).toNat = 1 from rfl, key] at h
    cases h
  · intro h
    by_cases hc : chunk ≤ 0
    · exact ⟨0, _, C45_whole t chunk hc 0 z⟩
    by_cases h2 : 2 ≤ chunk
    · obtain ⟨out, h1, h3⟩ := C45_from_zero t chunk h2 (t.length + 1) (by omega)
      cases z with
      | false => exact ⟨_, _, h1⟩
      | true => exact ⟨_, _, h3⟩
    · have h1 : chunk = 1 := by omega
      subst h1
      have hl : t.length ≤ 1 := by
        rcases h with h | h
        · exact absurd rfl h
        · exact h
      refine ⟨1, [chunkAt t z (0, t.length)], ?_⟩
      unfold getTimeChunks
      rw [if_neg (by decide), whileLoop, if_pos rfl, body_stop t _ z 0 [] (by show t.length ≤ 0 + 1; omega) (by omega)]
      rfl

/-- Seven times in chunks of three. -/
example : getTimeChunks 8 [0, 1, 2, 3, 4, 5, 6] 3 false = some [[0, 1, 2], [2, 3, 4], [4, 5, 6]] := by decide
example : getTimeChunks 8 [0, 1, 2, 3, 4, 5] 4 false = some [[0, 1, 2, 3], [3, 4, 5]] ∧
    getTimeChunks 8 [0, 1, 2, 3, 4, 5] 4 true = some [[0, 1, 2, 3], [0, 1, 2]] := by decide
example : ∀ fuel, getTimeChunks fuel [0, 1, 2] 1 false = none := by
  intro fuel
  cases h : getTimeChunks fuel [0, 1, 2] 1 false with
  | none => rfl
  | some out =>
    rcases (C45_terminates_iff [0, 1, 2] 1 false).1 ⟨fuel, out, h⟩ with h | h
    · exact absurd rfl h
    · exact absurd h (by decide)

/-! ## C46 -/

section Grid
variable [AddCommGroup τ]

theorem grid_length (a h : τ) (n : Nat) : (grid a h n).length = n := by simp [grid]

theorem slice_grid (a h : τ) (n i m : Nat) (hm : i + m ≤ n) : slice (grid a h n) i (i + m) = grid (a + i • h) h m := by
  apply List.ext_getElem
  · rw [slice_length, grid_length, grid_length]
    omega
  · intro j h1 h2
    rw [grid_length] at h2
    simp only [slice, grid, List.getElem_drop, List.getElem_take, List.getElem_map, List.getElem_range]
    rw [add_nsmul, add_assoc]

theorem slice_iterate (f : Y → Y) (y : Y) (n i m : Nat) (hm : i + m ≤ n) :
    slice ((List.range n).map fun j => f^[j] y) i (i + m) = (List.range m).map fun j => f^[j] (f^[i] y) := by
  apply List.ext_getElem
  · rw [slice_length, List.length_map, List.length_map, List.length_range, List.length_range]
    omega
  · intro j h1 h2
    rw [List.length_map, List.length_range] at h2
    simp only [slice, List.getElem_drop, List.getElem_take, List.getElem_map, List.getElem_range]
    rw [Nat.add_comm i j, Function.iterate_add_apply]

/-- C46: for a block that makes the same step `f` between neighbouring times of a uniform grid, prediction in chunks of any size of at least two
gives the same trajectory as one long prediction, with and without restarting the times at the beginning.  The
penalty is the one of the first chunk. -/
theorem C46_uniform (B : Blk σ τ Y P) (Inv : σ → Prop) (h : τ) (f : Y → Y) (hB : StepsOnGrid B Inv h f) (a : τ) (n : Nat) (hn : 0 < n) (zero y0 : Y)
    (chunk : Int) (hc : 2 ≤ chunk) (fromZero : Bool) (fuel : Nat) (hf : n < fuel) (s : σ) (hs : Inv s) :
    ∃ s1 s2, computeValidation fuel B zero (grid a h n) y0 true chunk fromZero s =
        some (s1, .ok ((List.range n).map (fun i => f^[i] y0), B.penalty (B.call y0 (B.setTimes ((grid a h n).take chunk.toNat) s)).1)) ∧ Inv s1 ∧
      computeValidation fuel B zero (grid a h n) y0 false chunk fromZero s = some (s2, .ok ((List.range n).map (fun i => f^[i] y0), B.penalty s2)) ∧ Inv s2 := by
  obtain ⟨s2, h1, h2⟩ := hB s hs a n y0 hn
  obtain ⟨s1, h3, h4⟩ := computeValidation_ok B Inv (grid a h n) fromZero ((List.range n).map fun i => f^[i] y0) (by simp [grid]) zero y0
    (by rw [List.getElem?_map, List.getElem?_range hn]; rfl)
    (by
      intro i m y s hs hm hi hy
      rw [grid_length] at hi
      rw [List.getElem?_map, List.getElem?_range (by omega), Option.map_some] at hy
      rw [slice_iterate f y0 n i m hi, Option.some.inj hy]
      cases fromZero with
      | false =>
        show ∃ s', B.call y (B.setTimes (slice (grid a h n) i (i + m)) s) = _ ∧ _
        rw [slice_grid a h n i m hi]
        exact hB s hs _ m y hm
      | true =>
        show ∃ s', B.call y (B.setTimes (slice (grid a h n) 0 m) s) = _ ∧ _
        have := slice_grid a h n 0 m (by omega)
        rw [Nat.zero_add, zero_nsmul, add_zero] at this
        rw [this]
        exact hB s hs a m y hm)
    chunk hc fuel (by rw [grid_length]; exact hf) s hs
  refine ⟨s1, s2, h3, h4, ?_, h2⟩
  unfold computeValidation
  rw [if_neg (by simp), h1]

/-- C46: for the flow of an autonomous system and times that are not restarted, this holds for every list of times. -/
theorem C46_any_times (B : Blk σ τ Y P) (Inv : σ → Prop) (φ : τ → Y → Y) (hφ : Flow φ) (hB : Predicts B Inv φ) (a : τ) (ts : List τ) (zero y0 : Y)
    (chunk : Int) (hc : 2 ≤ chunk) (fuel : Nat) (hf : (a :: ts).length < fuel) (s : σ) (hs : Inv s) :
    ∃ s1 p, computeValidation fuel B zero (a :: ts) y0 true chunk false s = some (s1, .ok ((a :: ts).map (fun u => φ (u - a) y0), p)) ∧ Inv s1 := by
  obtain ⟨s1, h3, h4⟩ := computeValidation_ok B Inv (a :: ts) false ((a :: ts).map fun u => φ (u - a) y0) (by simp) zero y0
    (by simp [hφ.zero])
    (by
      intro i m y s hs hm hi hy
      rw [List.getElem?_map, List.getElem?_eq_getElem (by omega), Option.map_some] at hy
      show ∃ s', B.call y (B.setTimes (slice (a :: ts) i (i + m)) s) = _ ∧ _
      have hlen : (slice (a :: ts) i (i + m)).length = m := by rw [slice_length]; omega
      obtain ⟨b, us, hb⟩ : ∃ b us, slice (a :: ts) i (i + m) = b :: us := by
        cases hsl : slice (a :: ts) i (i + m) with
        | nil => rw [hsl] at hlen; simp at hlen; omega
        | cons b us => exact ⟨b, us, rfl⟩
      have hbe : (a :: ts)[i]? = some b := by
        rw [← slice_head? (a :: ts) i (i + m) (by omega), hb]
        rfl
      rw [List.getElem?_eq_getElem (by omega)] at hbe
      rw [hb]
      obtain ⟨s', g1, g2⟩ := hB s hs b us y
      refine ⟨s', ?_, g2⟩
      rw [g1]
      have : slice ((a :: ts).map fun u => φ (u - a) y0) i (i + m) = (slice (a :: ts) i (i + m)).map fun u => φ (u - a) y0 := by
        unfold slice
        rw [List.map_drop, List.map_take]
      rw [this, hb]
      congr 2
      apply List.map_congr_left
      intro u _
      rw [← Option.some.inj hy, Option.some.inj hbe, ← hφ.add]
      congr 1
      abel)
    chunk hc fuel hf s hs
  exact ⟨s1, _, h3, h4⟩

/-- C46: without cutting (chunk size zero or negative) it is one long prediction, for every block. -/
theorem C46_uncut (B : Blk σ τ Y P) (Inv : σ → Prop) (φ : τ → Y → Y) (hB : Predicts B Inv φ) (a : τ) (ts : List τ) (zero y0 : Y)
    (chunk : Int) (hc : chunk ≤ 0) (fuel : Nat) (z : Bool) (s : σ) (hs : Inv s) :
    computeValidation fuel B zero (a :: ts) y0 true chunk z s = computeValidation fuel B zero (a :: ts) y0 false chunk z s := by
  obtain ⟨s', h1, _⟩ := hB s hs a ts y0
  unfold computeValidation
  rw [if_pos rfl, if_neg (by simp), C45_whole _ _ hc]
  dsimp only
  rw [predLoop]
  unfold predStep
  rw [if_pos rfl]
  dsimp only
  rw [h1]
  dsimp only
  rw [assign_ok _ _ _ _ (by rw [List.length_replicate]; omega) (by rw [List.length_map])]
  dsimp only
  rw [predLoop]
  simp

end Grid

/-! ### Blocks over the integers -/

/-- Exact solution of `y' = 1`; the state of the block is its time vector. -/
def shiftBlock : Blk (List ℤ) ℤ ℤ Unit where
  setTimes ts _ := ts
  call y ts := (ts, match ts with | [] => .error .indexError | a :: us => .ok ((a :: us).map fun u => y + (u - a)))
  penalty _ := ()

theorem shift_flow : Flow fun (a y : ℤ) => y + a := ⟨fun y => add_zero y, fun a b y => (add_assoc y a b).symm⟩

theorem shift_predicts : Predicts shiftBlock (fun _ => True) fun (a y : ℤ) => y + a := fun _ _ _ _ _ => ⟨_, rfl, trivial⟩

/-- C46: restarting the times is wrong on a grid that is not uniform, even for the flow of an autonomous system. -/
theorem C46_nonuniform_wrong : computeValidation 4 shiftBlock 0 [0, 1, 3] 0 true 2 true [] = some ([0, 1], .ok ([0, 1, 2], ())) ∧
    computeValidation 4 shiftBlock 0 [0, 1, 3] 0 false 2 true [] = some ([0, 1, 3], .ok ([0, 1, 3], ())) := by
  constructor <;> rfl

/-- C46: a block that returns a single value instead of one per time is not noticed when the times are handled as one chunk: the value is used for all times (without chunks the result would have one entry). -/
theorem C46_single_value (B : Blk σ τ Y P) (t : List τ) (zero y0 y : Y) (s s' : σ) (hB : B.call y0 (B.setTimes t s) = (s', .ok [y])) (chunk : Int) (hc : chunk ≤ 0) (fuel : Nat) (z : Bool) :
    computeValidation fuel B zero t y0 true chunk z s = some (s', .ok (List.replicate t.length y, B.penalty s')) ∧
      computeValidation fuel B zero t y0 false chunk z s = some (s', .ok ([y], B.penalty s')) := by
  have ha : assign (List.replicate t.length zero) 0 t.length [y] = .ok (List.replicate t.length y) := by
    unfold assign
    simp only [List.length_replicate, Nat.zero_add, Nat.min_self, Nat.sub_zero, List.length_singleton]
    split
    · next h => rw [← h]; simp
    · simp
  constructor
  · unfold computeValidation
    rw [if_pos rfl, C45_whole _ _ hc]
    simp only [predLoop, predStep, if_pos, hB, ha]
  · unfold computeValidation
    rw [if_neg (by simp), hB]

/-- A block that always returns the single value `y0 + 1`. -/
def oneValueBlock : Blk (List ℤ) ℤ ℤ Unit := { shiftBlock with call := fun y0 s => (s, .ok [y0 + 1]) }

example : computeValidation 1 oneValueBlock 0 [0, 1, 3] 5 true 0 true [] = some ([0, 1, 3], .ok ([6, 6, 6], ())) ∧
    computeValidation 1 oneValueBlock 0 [0, 1, 3] 5 false 0 true [] = some ([0, 1, 3], .ok ([6], ())) :=
  C46_single_value oneValueBlock [0, 1, 3] 0 5 6 [] [0, 1, 3] rfl 0 (le_refl _) 1 true

example : computeValidation 8 shiftBlock 0 [0, 1, 3, 7, 8] 5 true 2 false [] = some ([7, 8], .ok ([5, 6, 8, 12, 13], ())) := rfl

/-- `y' = y` by Euler's method with step 1: the same step everywhere. -/
def eulerBlock : Blk (List ℤ) ℤ ℤ Unit where
  setTimes ts _ := ts
  call y ts := (ts, .ok ((List.range ts.length).map fun i => (fun z => z + z)^[i] y))
  penalty _ := ()

example : StepsOnGrid eulerBlock (fun _ => True) 1 fun z => z + z := by
  intro s _ a n y _
  refine ⟨grid a 1 n, ?_, trivial⟩
  show (_, Except.ok ((List.range (grid a 1 n).length).map _)) = _
  rw [grid_length]
  rfl

end Verif.Chunks
