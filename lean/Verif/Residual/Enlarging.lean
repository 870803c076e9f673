import Verif.Residual.Spec
import Verif.Residual.Middle

/-!
# Enlarging rows
-/

namespace Verif.Residual
open Verif Verif.Tensor Verif.Whole Verif.Evolution Verif.Flow Verif.Later Verif.Enlarge

variable {K Kp Ko Θ Rb : Type}

/-! ## Coordinates in the middle -/

theorem shifted_cons (a b : Nat) (s s' : List Nat) (i : Nat) (idx : List Nat) : shifted (a :: s) (b :: s') (i :: idx) = (i + (b - a) / 2) :: shifted s s' idx := by
  simp [shifted, List.mapIdx_cons, dimSize]

theorem mem_left {Lp : Lay Kp} {l : List (String × List Nat × List Nat)} (hp : Lp.names = l.map (fun p => (p.1, p.2.1))) {nm : String} {s : List Nat} (h : (nm, s) ∈ Lp.names) :
    ∃ p ∈ l, p.1 = nm ∧ p.2.1 = s := by
  rw [hp] at h
  obtain ⟨p, h1, h2⟩ := List.mem_map.1 h
  cases h2
  exact ⟨p, h1, rfl, rfl⟩

theorem valid_shifted {s t idx : List Nat} (hf : Fits s t) (hv : Valid s idx) : Valid t (shifted s t idx) := by
  induction s generalizing t idx with
  | nil =>
    cases hv
    have := hf.1
    simp only [List.length_nil] at this
    rw [List.length_eq_zero_iff.1 this.symm]
    exact .nil
  | cons a s ih =>
    cases hv with
    | @cons i _ idx _ h1 h2 =>
      obtain ⟨b, t, rfl⟩ : ∃ b t', t = b :: t' := by
        cases t with
        | nil => exact absurd hf.1 (by simp)
        | cons b t => exact ⟨b, t, rfl⟩
      rw [shifted_cons]
      refine .cons ?_ (ih ⟨by have := hf.1; simpa using this, fun i c d hc hd => hf.2 (i + 1) c d (by simpa using hc) (by simpa using hd)⟩ h2)
      have : a ≤ b := hf.2 0 a b rfl rfl
      omega

/-- A place in the middle belongs to a coordinate in the middle, and the other way round. -/
theorem Inside.middle {Lp : Lay Kp} {L : Lay K} {ι : Kp → K} (hLp : Lp.Ok) (hL : L.Ok) {l : List (String × List Nat × List Nat)}
    (hl : Lp.names = l.map (fun p => (p.1, p.2.1))) (hl' : L.names = l.map (fun p => (p.1, p.2.2)))
    (h : ∀ p ∈ l, 1 ≤ p.2.1.length ∧ p.2.1[0]? = p.2.2[0]? ∧ Fits p.2.1 p.2.2 ∧
      ∀ idx, List.Forall₂ (· < ·) idx p.2.1 → L.coord p.1 (shifted p.2.1 p.2.2 idx) = (Lp.coord p.1 idx).map ι)
    {p : String × List Nat × List Nat} (hp : p ∈ l) {idx : List Nat} (hv : Valid p.2.2 idx) {k : K} (hk : L.coord p.1 idx = some k) {a : Kp} (ha : ι a = k) :
    ∃ idx', Valid p.2.1 idx' ∧ shifted p.2.1 p.2.2 idx' = idx ∧ Lp.coord p.1 idx' = some a := by
  obtain ⟨s, hs, hva, hca⟩ := hLp.into a
  obtain ⟨p', hp', h1, h2⟩ := mem_left hl hs
  have h3 := (h p' hp').2.2.2 (Lp.idx a) (by rw [h2]; exact hva)
  rw [h1, hca] at h3
  simp only [Option.map_some, ha] at h3
  have hm : (p.1, p.2.2) ∈ L.names := by rw [hl']; exact List.mem_map.2 ⟨p, hp, rfl⟩
  have hm' : (p'.1, p'.2.2) ∈ L.names := by rw [hl']; exact List.mem_map.2 ⟨p', hp', rfl⟩
  obtain ⟨k1, g1, g2, g3⟩ := hL.onto _ hm idx hv
  obtain ⟨k2, g4, g5, g6⟩ := hL.onto _ hm' (shifted p'.2.1 p'.2.2 (Lp.idx a)) (valid_shifted (h p' hp').2.2.1 (by rw [h2]; exact hva))
  dsimp only at g1 g2 g3 g4 g5 g6
  rw [hk] at g1
  rw [h1, h3] at g4
  cases g1
  cases g4
  have hpp : p' = p := by
    have hn : p'.1 = p.1 := by rw [← g5, g2]
    have hnd : (l.map fun p => p.1).Nodup := by
      have := hL.sorted
      unfold SDict.Sorted SDict.keys at this
      rw [hl', List.map_map] at this
      exact this.imp fun h => ne_of_lt h
    exact List.inj_on_of_nodup_map hnd hp' hp hn
  subst hpp
  exact ⟨Lp.idx a, by rw [h2]; exact hva, by rw [← g6, g3], by rw [h1]; exact hca⟩

theorem Inside.inj {Lp : Lay Kp} {L : Lay K} {ι : Kp → K} (hLp : Lp.Ok) (hL : L.Ok) (h : Inside Lp L ι) : Function.Injective ι := by
  obtain ⟨l, hl, hl', h⟩ := h.parts
  intro a b hab
  obtain ⟨s, hs, hva, hca⟩ := hLp.into a
  obtain ⟨p, hp, h1, h2⟩ := mem_left hl hs
  subst h2
  rw [← h1] at hca
  have h3 := (h p hp).2.2.2 (Lp.idx a) hva
  rw [hca] at h3
  obtain ⟨idx', g1, g2, g3⟩ := Inside.middle hLp hL hl hl' h hp (valid_shifted (h p hp).2.2.1 hva) h3 (a := b) hab.symm
  have : Lp.idx a = idx' := C23_embedding p.2.1 p.2.2 _ _ (by rw [hva.length_eq, g1.length_eq]) g2.symm
  rw [← this, hca] at g3
  exact Option.some.inj g3

theorem around_in {n : Nat} {ι : Kp → K} (hi : Function.Injective ι) (x : Fin n × Kp → ℝ) (f : Fin n × K → ℝ) (i : Fin n) (a : Kp) : around ι x f (i, ι a) = x (i, a) := by
  unfold around
  have h : ∃ b, ι b = ((i, ι a) : Fin n × K).2 := ⟨a, rfl⟩
  rw [dif_pos h]
  congr 2
  exact hi h.choose_spec

theorem around_out {n : Nat} {ι : Kp → K} (x : Fin n × Kp → ℝ) (f : Fin n × K → ℝ) (i : Fin n) {k : K} (hk : ∀ a, ι a ≠ k) : around ι x f (i, k) = f (i, k) := by
  unfold around
  exact dif_neg fun ⟨a, h⟩ => hk a h

theorem around_id {n : Nat} (x f : Fin n × K → ℝ) : around id x f = x := by
  funext k
  exact around_in Function.injective_id x f k.1 k.2

/-! ## One tensor -/

theorem fits_cons {s t : List Nat} (n : Nat) (h : Fits s t) : Fits (n :: s) (n :: t) := by
  refine ⟨by simp [h.1], ?_⟩
  intro i c d hc hd
  cases i with
  | zero =>
    simp only [List.getElem?_cons_zero, Option.some.injEq] at hc hd
    omega
  | succ i => exact h.2 i c d (by simpa using hc) (by simpa using hd)

/-- Entries that enlarge the tensors of rows. -/
def EntriesFit (Lp : Lay Kp) (L : Lay K) (pre : String) (n : Nat) (es : SDict String (Entry ℝ)) : Prop :=
  List.Forall₂ (fun (p : (String × List Nat) × (String × List Nat)) e => e.1 = pre ++ p.1.1 ∧ Block.EntryFits (n :: p.1.2) (n :: p.2.2) e.2) (Lp.names.zip L.names) es

theorem forall₂_zip_map {α β γ δ : Type} {R : α × β → δ → Prop} (f : γ → α) (g : γ → β) (l : List γ) (es : List δ) :
    List.Forall₂ R ((l.map f).zip (l.map g)) es ↔ List.Forall₂ (fun c e => R (f c, g c) e) l es := by
  induction l generalizing es with
  | nil => simp
  | cons c l ih => cases es <;> simp [ih]

theorem forall₂_mem {α β : Type} {R S : α → β → Prop} {l : List α} {m : List β} (h : List.Forall₂ R l m) (hi : ∀ a ∈ l, ∀ b, R a b → S a b) : List.Forall₂ S l m := by
  induction h with
  | nil => exact .nil
  | cons h1 _ ih => exact .cons (hi _ (by simp) _ h1) (ih fun a ha b => hi a (List.mem_cons_of_mem _ ha) b)

theorem enlarge_enc {Lp : Lay Kp} {L : Lay K} {ι : Kp → K} (hLp : Lp.Ok) (hL : L.Ok) (hin : Inside Lp L ι) (pre : String) (n : Nat) (es : SDict String (Entry ℝ))
    (hes : EntriesFit Lp L pre n es) :
    ∃ f : Fin n × K → ℝ, ∀ x, SDict.mapLoop enlargeEntry (zipItems (enc Lp pre n x) es) = .ok (enc L pre n (around ι x f)) := by
  have hinj := hin.inj hLp hL
  obtain ⟨l, hl, hl', h⟩ := hin.parts
  unfold EntriesFit at hes
  rw [hl, hl', forall₂_zip_map] at hes
  have hnd : (l.map fun p => p.1).Nodup := by
    have := hL.sorted
    unfold SDict.Sorted SDict.keys at this
    rw [hl', List.map_map] at this
    exact this.imp fun h => ne_of_lt h
  -- what is put around every tensor
  have hG : ∃ G : String → List Nat → ℝ, List.Forall₂ (fun p e => e.1 = pre ++ p.1 ∧ ∀ t : Tensor ℝ, t.WF → t.shape = n :: p.2.1 → ∃ r, enlargeEntry (t, e.2) = .ok r ∧ r.WF ∧ r.shape = n :: p.2.2 ∧
      (∀ idx x, t.get? idx = some x → r.get? (shifted (n :: p.2.1) (n :: p.2.2) idx) = some x) ∧
      ∀ idx, Valid (n :: p.2.2) idx → (∀ idx', Valid (n :: p.2.1) idx' → shifted (n :: p.2.1) (n :: p.2.2) idx' ≠ idx) → r.get? idx = some (G p.1 idx)) l es := by
    clear hl hl' hin
    induction hes with
    | nil => exact ⟨fun _ _ => 0, .nil⟩
    | @cons p e l es h1 h2 ih =>
      rw [List.map_cons, List.nodup_cons] at hnd
      obtain ⟨G, hG⟩ := ih (fun q hq => h q (List.mem_cons_of_mem _ hq)) hnd.2
      obtain ⟨g1, g2, g3, _⟩ := h p (by simp)
      obtain ⟨g, hg⟩ := entry_around (n :: p.2.1) (n :: p.2.2) (fits_cons n g3) (by simpa using g1) (by simpa using g2) e.2 h1.2
      refine ⟨fun s => if s = p.1 then g else G s, .cons ⟨h1.1, by simpa using hg⟩ ?_⟩
      refine forall₂_mem hG fun q hq e' hh => ⟨hh.1, ?_⟩
      have hne : q.1 ≠ p.1 := fun hqp => hnd.1 (by rw [← hqp]; exact List.mem_map.2 ⟨q, hq, rfl⟩)
      simpa only [if_neg hne] using hh.2
  obtain ⟨G, hG⟩ := hG
  refine ⟨fun k => G (L.key k.2) (k.1.1 :: L.idx k.2), fun x => ?_⟩
  have hz : SDict.keys (zipItems (enc Lp pre n x) es) = SDict.keys (enc Lp pre n x) := by
    unfold zipItems enc SDict.keys
    rw [hl]
    clear * - hG
    induction hG with
    | nil => rfl
    | cons _ _ ih => simpa using ih
  have hzs : SDict.Sorted (zipItems (enc Lp pre n x) es) := by
    unfold SDict.Sorted
    rw [hz]
    exact enc_sorted hLp pre n x
  rw [SDict.mapLoop_ok_iff hzs]
  unfold SDict.MapsTo enc zipItems
  rw [hl, hl']
  have key : ∀ p ∈ l, ∀ e : String × Entry ℝ, (e.1 = pre ++ p.1 ∧ ∀ t : Tensor ℝ, t.WF → t.shape = n :: p.2.1 → ∃ r, enlargeEntry (t, e.2) = .ok r ∧ r.WF ∧ r.shape = n :: p.2.2 ∧
      (∀ idx x, t.get? idx = some x → r.get? (shifted (n :: p.2.1) (n :: p.2.2) idx) = some x) ∧
      ∀ idx, Valid (n :: p.2.2) idx → (∀ idx', Valid (n :: p.2.1) idx' → shifted (n :: p.2.1) (n :: p.2.2) idx' ≠ idx) → r.get? idx = some (G p.1 idx)) →
      enlargeEntry (tab (n :: p.2.1) (value Lp n x p.1), e.2) = .ok (tab (n :: p.2.2) (value L n (around ι x fun k => G (L.key k.2) (k.1.1 :: L.idx k.2)) p.1)) := by
    intro p hp e he
    obtain ⟨r, r1, r2, r3, r4, r5⟩ := he.2 _ (tab_wf (n :: p.2.1) (value Lp n x p.1)) rfl
    rw [r1]
    congr 1
    have hr := tab_get? r2 0
    rw [← hr, r3]
    unfold tab
    congr 1
    apply tabData_congr
    intro idx hv
    cases hv with
    | @cons i _ idx _ hi hv =>
      have hm : (p.1, p.2.2) ∈ L.names := by rw [hl']; exact List.mem_map.2 ⟨p, hp, rfl⟩
      obtain ⟨k, k1, k2, k3⟩ := hL.onto _ hm idx hv
      dsimp only at k1 k2 k3
      have e1 : value L n (around ι x fun k => G (L.key k.2) (k.1.1 :: L.idx k.2)) p.1 (i :: idx) = around ι x (fun k => G (L.key k.2) (k.1.1 :: L.idx k.2)) (⟨i, hi⟩, k) :=
        value_coord _ k1 ⟨i, hi⟩
      rw [e1]
      by_cases ha : ∃ a, ι a = k
      · obtain ⟨a, rfl⟩ := ha
        obtain ⟨idx', g1, g2, g3⟩ := Inside.middle hLp hL hl hl' h hp hv k1 rfl
        rw [around_in hinj]
        have e2 := r4 (i :: idx') (x (⟨i, hi⟩, a)) (by rw [get?_tab (.cons hi g1), value_coord x g3 ⟨i, hi⟩])
        rw [shifted_cons, g2, Nat.sub_self, Nat.zero_div, Nat.add_zero] at e2
        rw [e2]
        rfl
      · rw [around_out _ _ _ (fun a h => ha ⟨a, h⟩)]
        dsimp only
        rw [k2, k3, r5 (i :: idx) (.cons hi hv)]
        · rfl
        · intro idx' hv' he'
          cases hv' with
          | @cons i' _ idx'' _ hi' hv'' =>
            rw [shifted_cons, Nat.sub_self, Nat.zero_div, Nat.add_zero] at he'
            injection he' with _ he'
            have hm' : (p.1, p.2.1) ∈ Lp.names := by rw [hl]; exact List.mem_map.2 ⟨p, hp, rfl⟩
            obtain ⟨a, a1, _, _⟩ := hLp.onto _ hm' idx'' hv''
            have := (h p hp).2.2.2 idx'' hv''
            dsimp only at a1
            rw [he', a1, k1] at this
            exact ha ⟨a, (Option.some.inj this).symm⟩
  generalize (fun k : Fin n × K => G (L.key k.2) (k.1.1 :: L.idx k.2)) = f at key ⊢
  clear hz hzs h hl hl' hnd hin hes
  have key' := fun p hp e he => And.intro (And.left he : e.1 = pre ++ p.1) (key p hp e he)
  clear key
  induction hG with
  | nil => exact .nil
  | @cons p e l es h1 h2 ih =>
    simp only [List.map_cons, List.zipWith_cons_cons]
    exact .cons ⟨rfl, (key' p (by simp) e h1).2⟩ (ih fun q hq e he => key' q (List.mem_cons_of_mem _ hq) e he)

end Verif.Residual
