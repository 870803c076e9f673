import Verif.Residual.Consequences
import Verif.Whole.Images
import Verif.Later.Layouts

/-!
# C80: the layouts for images
-/

namespace Verif.Residual
open Verif Verif.Tensor Verif.Whole Verif.Later Verif.Conv

/-- A pixel of a small image in the middle of a larger one. -/
def midPx {h w H W : Nat} (hh : h ≤ H) (hw : w ≤ W) (k : Px h w) : Px H W :=
  (⟨k.1 + (H - h) / 2, by have := k.1.2; omega⟩, ⟨k.2 + (W - w) / 2, by have := k.2.2; omega⟩)

/-- Small images in the middle of larger ones, with the same channels. -/
def midImages {c e h w H W : Nat} (hh : h ≤ H) (hw : w ≤ W) : Imgs (Fin c) (Fin e) h w → Imgs (Fin c) (Fin e) H W :=
  Sum.map (fun k => (k.1, midPx hh hw k.2)) fun k => (k.1, midPx hh hw k.2)

theorem thin_lt {s h i : Nat} (hi : i < h / s) : h % s + s * i < h := by
  have h1 := Nat.div_add_mod h s
  have hs : 0 < s := by
    rcases Nat.eq_zero_or_pos s with rfl | h
    · simp at hi
    · exact h
  have h2 : s * i + s ≤ s * (h / s) := by
    rw [← Nat.mul_succ]
    exact Nat.mul_le_mul_left s hi
  omega

/-- The pixel that is kept at a position: the last `⌊h / s⌋` pixels at distance `s`, ending at the last but `s - 1`. -/
def thinPx (s : Nat) {h w : Nat} (k : Px (h / s) (w / s)) : Px h w :=
  (⟨h % s + s * k.1, thin_lt k.1.2⟩, ⟨w % s + s * k.2, thin_lt k.2.2⟩)

def thinImages (s : Nat) {c e h w : Nat} : Imgs (Fin c) (Fin e) (h / s) (w / s) → Imgs (Fin c) (Fin e) h w :=
  Sum.map (fun k => (k.1, thinPx s k.2)) fun k => (k.1, thinPx s k.2)

theorem triple_mid {c h w H W : Nat} (hh : h ≤ H) (hw : w ≤ W) {idx : List Nat} (hv : Valid [c, h, w] idx) :
    triple c H W (Enlarge.shifted [c, h, w] [c, H, W] idx) = (triple c h w idx).map fun k => (k.1, midPx hh hw k.2) := by
  obtain ⟨k, h1, h2⟩ := triple_some hv
  rw [h1, ← h2]
  have e : Enlarge.shifted [c, h, w] [c, H, W] [k.1.1, k.2.1.1, k.2.2.1] = [k.1.1, k.2.1.1 + (H - h) / 2, k.2.2.1 + (W - w) / 2] := by
    simp [Enlarge.shifted, List.mapIdx_cons, dimSize]
  rw [e]
  exact triple_back (k.1, midPx hh hw k.2)

theorem triple_thin (s : Nat) {c h w : Nat} {idx : List Nat} (hv : Valid [c, h / s, w / s] idx) :
    triple c h w (Striding.sourceIndex [(s, 1), (s, 2)] [c, h, w] idx) = (triple c (h / s) (w / s) idx).map fun k => (k.1, thinPx s k.2) := by
  obtain ⟨k, h1, h2⟩ := triple_some hv
  rw [h1, ← h2]
  have e : Striding.sourceIndex [(s, 1), (s, 2)] [c, h, w] [k.1.1, k.2.1.1, k.2.2.1] = [k.1.1, h % s + s * k.2.1.1, w % s + s * k.2.2.1] := by
    simp [Striding.sourceIndex, List.mapIdx_cons, dimSize, Striding.strideFor, Nat.mod_one]
  rw [e]
  exact triple_back (k.1, thinPx s k.2)

theorem valid_of {s idx : List Nat} (h : List.Forall₂ (· < ·) idx s) : Valid s idx := by
  induction h with
  | nil => exact .nil
  | cons h1 _ ih => exact .cons h1 ih

theorem fits_images {c h w H W : Nat} (hh : h ≤ H) (hw : w ≤ W) : Enlarge.Fits [c, h, w] [c, H, W] := by
  refine ⟨rfl, fun i a b ha hb => ?_⟩
  match i with
  | 0 => simp at ha hb; omega
  | 1 => simp at ha hb; omega
  | 2 => simp at ha hb; omega
  | i + 3 => simp at ha

/-- C80: particles for the convolutional classes can be enlarged to any larger size: the small images are in the middle, with half of the new pixels (rounded down) before them. -/
theorem C80_image_middle {h w H W : Nat} (hh : h ≤ H) (hw : w ≤ W) (c e : Nat) : Inside (layImages c e h w) (layImages c e H W) (midImages hh hw) where
  parts := by
    refine ⟨[("q1", [c, h, w], [c, H, W]), ("q2", [e, h, w], [e, H, W])], rfl, rfl, ?_⟩
    intro p hp
    simp only [List.mem_cons, List.not_mem_nil, or_false] at hp
    rcases hp with rfl | rfl
    · refine ⟨by simp, rfl, fits_images hh hw, fun idx hv => ?_⟩
      have := triple_mid hh hw (valid_of hv)
      simp only [layImages, if_true, Option.map_map]
      refine (congrArg (Option.map _) this).trans ?_
      rw [Option.map_map]
      rfl
    · refine ⟨by simp, rfl, fits_images hh hw, fun idx hv => ?_⟩
      have := triple_mid hh hw (valid_of hv)
      simp only [layImages, show ("q2" = "q1") = False by simp, if_true, if_false, Option.map_map]
      refine (congrArg (Option.map _) this).trans ?_
      rw [Option.map_map]
      rfl

/-- C80: striding images by `s` in both directions leaves `⌊h / s⌋` by `⌊w / s⌋` pixels: those at `h mod s + s i`, `w mod s + s j`. -/
theorem C80_image_stride (s c e h w : Nat) : Strided (layImages c e h w) (layImages c e (h / s) (w / s)) (thinImages s) [(s, 1), (s, 2)] where
  parts := by
    refine ⟨[("q1", [c, h, w], [c, h / s, w / s]), ("q2", [e, h, w], [e, h / s, w / s])], rfl, rfl, ?_⟩
    intro p hp
    simp only [List.mem_cons, List.not_mem_nil, or_false] at hp
    rcases hp with rfl | rfl
    · refine ⟨by simp, by simp [Striding.targetShape, List.mapIdx_cons, Striding.strideFor], fun idx hv => ?_⟩
      have := triple_thin s (valid_of hv)
      simp only [layImages, if_true, Option.map_map]
      refine (congrArg (Option.map _) this).trans ?_
      rw [Option.map_map]
      rfl
    · refine ⟨by simp, by simp [Striding.targetShape, List.mapIdx_cons, Striding.strideFor], fun idx hv => ?_⟩
      have := triple_thin s (valid_of hv)
      simp only [layImages, show ("q2" = "q1") = False by simp, if_true, if_false, Option.map_map]
      refine (congrArg (Option.map _) this).trans ?_
      rw [Option.map_map]
      rfl

/-- The striding blocks that the network creates (`C42_strides`) are these. -/
theorem strider_images (s : Nat) : strider [(s, 1), (s, 2)] = ⟨[(s : Int), s], [2, 3]⟩ := rfl

theorem allowed_images {s : Nat} (hs : 0 < s) : Allowed [(s, 1), (s, 2)] := by
  refine ⟨?_, by simp⟩
  intro q hq
  simp only [List.mem_cons, List.not_mem_nil, or_false] at hq
  rcases hq with rfl | rfl <;> simp [hs]

theorem samePixels_images (c e c' e' h w : Nat) : SamePixels (layImages c e h w) (layImages c' e' h w) :=
  ⟨[("q1", [c, h, w], [c', h, w]), ("q2", [e, h, w], [e', h, w])], rfl, rfl, by simp⟩

end Verif.Residual
