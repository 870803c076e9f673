import Verif.LongRange.Model
import Verif.LongRange.Spec
import Verif.Chunks.Props
import Verif.Converge.Forward

/-!
# Lemmas for C90
-/

namespace Verif.LongRange
open Verif Verif.Chunks

variable {σ τ Y P Z V : Type}

/-! ## Pieces -/

theorem follow_length_flatten (F : List τ → Z → List Z) (hF : ∀ c z, c ≠ [] → (F c z).length = c.length) (cs : List (List τ)) (hcs : ∀ c ∈ cs, c ≠ []) (z : Z) :
    ((follow F z cs).map List.tail).flatten.length = (cs.map List.tail).flatten.length := by
  induction cs generalizing z with
  | nil => rfl
  | cons c cs ih =>
    have h := ih (fun d hd => hcs d (by simp [hd])) ((F c z).getLastD z)
    have := hF c z (hcs c (by simp))
    simp only [follow, List.map_cons, List.flatten_cons, List.length_append, List.length_tail] at h ⊢
    omega

/-- What is known of a block: for pieces of `t` it predicts `F`, encoded by `e`; the first prediction is the initial value. -/
structure Answers (B : Blk σ τ Y P) (Inv : σ → Prop) (ok : List τ → Prop) (e : Z → Y) (F : List τ → Z → List Z) : Prop where
  call : ∀ s c z, Inv s → ok c → c ≠ [] → ∃ s', B.call (e z) (B.setTimes c s) = (s', .ok ((F c z).map e)) ∧ Inv s'
  length : ∀ c z, c ≠ [] → (F c z).length = c.length
  first : ∀ c z, c ≠ [] → ((F c z).map e).head? = some (e z)

theorem predLoop_follow {B : Blk σ τ Y P} {Inv : σ → Prop} {ok : List τ → Prop} {e : Z → Y} {F : List τ → Z → List Z} (hB : Answers B Inv ok e F) (y0 : Y) (cs : List (List τ))
    (hcs : ∀ c ∈ cs, ok c ∧ c ≠ []) (i : Nat) (hi : i ≠ 0) (s : σ) (hs : Inv s) (done : List Y) (z : Z) (rest : List Y) (pen : Option P)
    (hr : rest.length = (cs.map List.tail).flatten.length) :
    ∃ s' cur', predLoop B y0 i cs s ⟨done ++ [e z] ++ rest, done.length, pen⟩ = (s', .ok ⟨done ++ [e z] ++ ((follow F z cs).map List.tail).flatten.map e, cur', pen⟩) ∧ Inv s' := by
  induction cs generalizing i s done z rest with
  | nil =>
    have : rest = [] := by simpa using hr
    subst this
    exact ⟨s, _, rfl, hs⟩
  | cons c cs ih =>
    obtain ⟨hok, hne⟩ := hcs c (by simp)
    obtain ⟨s1, h1, h2⟩ := hB.call s c z hs hok hne
    have hl := hB.length c z hne
    have hf := hB.first c z hne
    have hcl : 0 < c.length := List.length_pos_iff.2 hne
    obtain ⟨w, ws, hw⟩ : ∃ w ws, F c z = w :: ws := by
      cases h : F c z with
      | nil => rw [h] at hl; simp at hl; omega
      | cons w ws => exact ⟨w, ws, rfl⟩
    rw [hw] at hf hl
    have hez : e w = e z := by simpa using hf
    have hwl : ws.length = c.length - 1 := by simp at hl; omega
    have hrl : rest.length = c.length - 1 + (cs.map List.tail).flatten.length := by
      rw [hr]; simp only [List.map_cons, List.flatten_cons, List.length_append, List.length_tail]
    -- the new values
    have hval : ∃ init last, w :: ws = init ++ [last] ∧ (w :: ws).getLastD z = last := by
      refine ⟨(w :: ws).dropLast, (w :: ws).getLast (by simp), (List.dropLast_append_getLast (by simp)).symm, ?_⟩
      rw [List.getLastD_eq_getLast?, List.getLast?_eq_some_getLast (by simp), Option.getD_some]
    obtain ⟨init, last, hil, hlast⟩ := hval
    have hinit : init.length = c.length - 1 := by
      have := congrArg List.length hil
      simp at this
      omega
    obtain ⟨s2, cur', h3, h4⟩ := ih (fun d hd => hcs d (by simp [hd])) (i + 1) (by omega) s1 h2 (done ++ init.map e) last (rest.drop (c.length - 1)) (by
      rw [List.length_drop]; omega)
    refine ⟨s2, cur', ?_, h4⟩
    rw [predLoop]
    unfold predStep
    rw [if_neg hi]
    have hget : (done ++ [e z] ++ rest)[done.length]? = some (e z) := by simp
    dsimp only
    rw [hget]
    dsimp only
    rw [h1]
    dsimp only
    rw [assign_ok _ _ _ _ (by simp only [List.length_append, List.length_singleton]; omega) (by rw [List.length_map, hw]; exact hl)]
    dsimp only
    rw [if_neg hi]
    have e1 : (done ++ [e z] ++ rest).take done.length ++ (F c z).map e ++ (done ++ [e z] ++ rest).drop (done.length + c.length) =
        done ++ init.map e ++ [e last] ++ rest.drop (c.length - 1) := by
      rw [hw, hil]
      rw [show done ++ [e z] ++ rest = done ++ ([e z] ++ rest) from List.append_assoc _ _ _, List.take_left, List.drop_append]
      have : List.drop (done.length + c.length) done = [] := List.drop_eq_nil_of_le (by omega)
      rw [this, show done.length + c.length - done.length = c.length - 1 + 1 by omega]
      simp
    rw [e1, show done.length + c.length - 1 = (done ++ init.map e).length by rw [List.length_append, List.length_map]; omega, h3]
    congr 3
    have hcons : e w :: ws.map e = init.map e ++ [e last] := by
      rw [← List.map_cons, hil]; simp
    rw [follow, hw, hlast]
    simp only [List.map_cons, List.flatten_cons, List.map_append, List.tail_cons]
    rw [List.append_assoc done, ← hcons, hez]
    simp

theorem glue_cons_ne {c : List τ} {cs : List (List τ)} : glue (c :: cs) = c ++ (cs.map List.tail).flatten := rfl

/-- The chunks that are used: not empty, parts of the times, with as many points as there are times when glued. -/
theorem getTimeChunks_ok (t : List τ) (ht : t ≠ []) (chunk : Int) (hc : 2 ≤ chunk) (zf : Bool) (fuel : Nat) (hf : t.length < fuel) :
    ∃ cs, getTimeChunks fuel t chunk zf = some cs ∧ cs ≠ [] ∧ (∀ c ∈ cs, c.Sublist t ∧ c ≠ []) ∧ (glue cs).length = t.length := by
  obtain ⟨k, rfl⟩ : ∃ c : Nat, chunk = c := ⟨chunk.toNat, by omega⟩
  have hk : 2 ≤ k := by omega
  have htl : 0 < t.length := List.length_pos_iff.2 ht
  have hpos : ∀ w ∈ windows k t.length fuel 0, 0 < w.2 := by
    intro w hw
    by_cases h2 : 2 ≤ t.length
    · exact Nat.lt_of_lt_of_le (by omega) (windows_two k t.length fuel 0 (by omega) hk w hw)
    · obtain ⟨f, rfl⟩ : ∃ f, fuel = f + 1 := ⟨fuel - 1, by omega⟩
      rw [windows, if_pos (by omega)] at hw
      rw [List.mem_singleton.1 hw]
      show 0 < t.length - 0
      omega
  have hlen : ∀ z w, w ∈ windows k t.length fuel 0 → (chunkAt t z w).length = w.2 := fun z w hw =>
    chunkAt_length t z w (windows_inside k t.length fuel 0 (by omega) (by omega) w hw).1
  have hglue : ∀ z, (glue ((windows k t.length fuel 0).map (chunkAt t z))).length = (glue ((windows k t.length fuel 0).map (chunkAt t false))).length := by
    intro z
    have : ∀ ws : List (Nat × Nat), (∀ w ∈ ws, w ∈ windows k t.length fuel 0) →
        (((ws.map (chunkAt t z)).map List.tail).flatten).length = (((ws.map (chunkAt t false)).map List.tail).flatten).length := by
      intro ws
      induction ws with
      | nil => intro _; rfl
      | cons w ws ih =>
        intro h
        have e1 := hlen z w (h w (by simp))
        have e2 := hlen false w (h w (by simp))
        have := ih fun v hv => h v (by simp [hv])
        simp only [List.map_cons, List.flatten_cons, List.length_append, List.length_tail] at this ⊢
        omega
    cases hw : windows k t.length fuel 0 with
    | nil => rfl
    | cons w ws =>
      have e1 := hlen z w (by simp [hw])
      have e2 := hlen false w (by simp [hw])
      have := this ws fun v hv => by simp [hw, hv]
      simp only [List.map_cons, glue_cons_ne, List.length_append]
      omega
  refine ⟨(windows k t.length fuel 0).map (chunkAt t zf), ?_, ?_, ?_, ?_⟩
  · unfold getTimeChunks
    rw [if_neg (by omega), Int.toNat_natCast, whileLoop_windows t k hk zf fuel 0 [] (by omega) (by omega)]
    rfl
  · obtain ⟨m, ws, h, _⟩ := windows_head k t.length fuel 0 (by omega) (by omega)
    rw [h]
    simp
  · intro c hc
    obtain ⟨w, hw, rfl⟩ := List.mem_map.1 hc
    refine ⟨?_, fun h => ?_⟩
    · unfold chunkAt slice
      split
      · exact (List.drop_sublist _ _).trans (List.take_sublist _ _)
      · exact (List.drop_sublist _ _).trans (List.take_sublist _ _)
    · have := hlen zf w hw
      rw [h] at this
      have := hpos w hw
      simp at *
      omega
  · rw [hglue, windows_glue t k fuel 0 (by omega) (by omega) hk, slice_all]

/-- Chunked prediction is prediction piece by piece. -/
theorem computeValidation_follow {B : Blk σ τ Y P} {Inv : σ → Prop} {ok : List τ → Prop} {e : Z → Y} {F : List τ → Z → List Z} (hB : Answers B Inv ok e F) {t : List τ} (ht : t ≠ [])
    (hok : ∀ c, c.Sublist t → ok c) (zero : Y) (z : Z) (chunk : Int) (hc : 2 ≤ chunk) (zf : Bool) (fuel : Nat) (hf : t.length < fuel) (s : σ) (hs : Inv s) :
    ∃ cs s' p, getTimeChunks fuel t chunk zf = some cs ∧ computeValidation fuel B zero t (e z) true chunk zf s = some (s', .ok ((glue (follow F z cs)).map e, p)) ∧ Inv s' := by
  obtain ⟨cs, h1, h2, h3, h4⟩ := getTimeChunks_ok t ht chunk hc zf fuel hf
  obtain ⟨c, cs, rfl⟩ : ∃ c ds, cs = c :: ds := by
    cases cs with
    | nil => exact absurd rfl h2
    | cons c ds => exact ⟨c, ds, rfl⟩
  obtain ⟨hsub, hne⟩ := h3 c (by simp)
  obtain ⟨s1, g1, g2⟩ := hB.call s c z hs (hok c hsub) hne
  have hl := hB.length c z hne
  have hcl : 0 < c.length := List.length_pos_iff.2 hne
  obtain ⟨init, last, hil⟩ : ∃ init last, F c z = init ++ [last] := by
    have : F c z ≠ [] := fun h => by rw [h] at hl; simp at hl; omega
    exact ⟨(F c z).dropLast, (F c z).getLast this, (List.dropLast_append_getLast this).symm⟩
  have hinit : init.length = c.length - 1 := by
    have := congrArg List.length hil
    simp at this
    omega
  rw [glue_cons_ne, List.length_append] at h4
  obtain ⟨s2, cur', g3, g4⟩ := predLoop_follow hB (e z) cs (fun d hd => ⟨hok d (h3 d (by simp [hd])).1, (h3 d (by simp [hd])).2⟩) 1 (by omega) s1 g2 (init.map e) last
    (List.replicate (t.length - c.length) zero) (some (B.penalty s1)) (by rw [List.length_replicate]; omega)
  refine ⟨c :: cs, s2, B.penalty s1, h1, ?_, g4⟩
  unfold computeValidation
  rw [if_pos rfl, h1]
  dsimp only
  rw [predLoop]
  unfold predStep
  rw [if_pos rfl]
  dsimp only
  rw [g1]
  dsimp only
  rw [assign_ok _ _ _ _ (by rw [List.length_replicate]; omega) (by rw [List.length_map]; exact hl)]
  dsimp only
  rw [if_pos rfl]
  have e1 : (List.replicate t.length zero).take 0 ++ (F c z).map e ++ (List.replicate t.length zero).drop (0 + c.length) =
      init.map e ++ [e last] ++ List.replicate (t.length - c.length) zero := by
    rw [hil]
    simp
  rw [e1, show 0 + c.length - 1 = (init.map e).length by rw [List.length_map]; omega, g3]
  simp only [follow, glue_cons_ne, hil]
  simp

end Verif.LongRange
