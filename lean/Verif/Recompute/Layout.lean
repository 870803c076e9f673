import Verif.Recompute.Lemmas

/-!
# Vectors taken apart have the layout of the plans
-/

namespace Verif.Recompute
open Verif Verif.Assembly Verif.Flow

variable {α T σ : Type}

theorem decDict_shapes (v : List α) (p : Plan) (i : Nat) : (decDict (readVec v) p i).map (fun e => (e.1, e.2.shape)) = p := by
  induction p generalizing i with
  | nil => rfl
  | cons e p ih => simp only [decDict, List.map_cons, ih, readVec]

theorem decDicts_shapes (v : List α) (p : Plans) (i : Nat) : shapesOf (decDicts (readVec v) p i) = p := by
  unfold shapesOf
  induction p generalizing i with
  | nil => rfl
  | cons e p ih => simp only [decDicts, List.map_cons, ih, decDict_shapes]

theorem decDict_wf (v : List α) (p : Plan) (i : Nat) (h : i + plen p ≤ v.length) : ∀ e ∈ decDict (readVec v) p i, e.2.WF := by
  induction p generalizing i with
  | nil => intro e he; cases he
  | cons a p ih =>
    intro e he
    rw [plen_cons] at h
    rcases List.mem_cons.1 he with rfl | he
    · show (slice v i (i + vol a.2)).length = vol a.2
      rw [slice_length]
      omega
    · exact ih _ (by omega) e he

theorem decDicts_wf (v : List α) (p : Plans) (i : Nat) (h : i + planLength p ≤ v.length) : ∀ b ∈ decDicts (readVec v) p i, ∀ e ∈ b.2, e.2.WF := by
  induction p generalizing i with
  | nil => intro e he; cases he
  | cons a p ih =>
    intro b hb
    rw [planLength_cons] at h
    rcases List.mem_cons.1 hb with rfl | hb
    · exact decDict_wf v _ _ (by omega)
    · exact ih _ (by omega) b hb

theorem decDicts_good (v : List α) (p : Plans) (hp : GoodPlans p) (i : Nat) (h : i + planLength p ≤ v.length) : GoodDicts (decDicts (readVec v) p i) := by
  have hs := decDicts_shapes v p i
  have hw := decDicts_wf v p i h
  generalize decDicts (readVec v) p i = d at hs hw
  subst hs
  have hk : ∀ {β γ : Type} (l : List (String × β)) (f : String × β → γ), SDict.keys (l.map fun e => (e.1, f e)) = SDict.keys l := by
    intro β γ l f
    simp [SDict.keys]
  refine ⟨?_, fun b hb => ?_⟩
  · have := hp.1
    unfold SDict.Sorted at this ⊢
    unfold shapesOf at this
    rwa [hk] at this
  · obtain ⟨h1, h2⟩ := hp.2 _ (List.mem_map.2 ⟨b, hb, rfl⟩)
    refine ⟨?_, fun e he => ?_⟩
    · unfold SDict.Sorted at h1 ⊢
      rwa [hk] at h1
    · exact ⟨hw b hb e he, h2 _ (List.mem_map.2 ⟨e, he, rfl⟩)⟩

theorem disassemble_some {q : AllPlans} (hq : GoodAllPlans q) {v : List α} (h : totalLength q ≤ v.length) :
    ∃ x, disassembleTensor (.vec v) (some q) 0 = .ok x ∧ HasLayout q x := by
  rw [disassembleTensor_vec v q hq, if_pos h]
  unfold totalLength at h
  exact ⟨_, rfl, ⟨decDicts_good v _ hq.1 _ (by omega), decDicts_shapes ..⟩, ⟨decDicts_good v _ hq.2.1 _ (by omega), decDicts_shapes ..⟩,
    ⟨decDicts_good v _ hq.2.2 _ (by omega), decDicts_shapes ..⟩⟩

end Verif.Recompute
