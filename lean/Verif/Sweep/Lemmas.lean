import Verif.Sweep.Model
import Verif.Sweep.Spec
import Mathlib.Algebra.BigOperators.Group.List.Basic

namespace Verif.Sweep
open Verif

variable {V : Type}

/-- All index vectors, first position slowest. -/
def indices : PDict String (List V) → List (List Nat)
  | [] => [[]]
  | p :: pars => (List.range p.2.length).flatMap (fun i => (indices pars).map (i :: ·))

/-- All combinations, first option slowest. -/
def combos : PDict String (List V) → List (PDict String V)
  | [] => [[]]
  | p :: pars => p.2.flatMap (fun v => (combos pars).map ((p.1, v) :: ·))

theorem mem_indices (pars : PDict String (List V)) (ix : List Nat) : ix ∈ indices pars ↔ Valid pars ix := by
  induction pars generalizing ix with
  | nil => simp [indices, Valid]
  | cons p pars ih =>
    simp only [indices, List.mem_flatMap, List.mem_range, List.mem_map, Valid]
    constructor
    · rintro ⟨i, hi, ix', h, rfl⟩
      exact List.Forall₂.cons hi ((ih ix').1 h)
    · intro h
      cases h with
      | cons h1 h2 => exact ⟨_, h1, _, (ih _).2 h2, rfl⟩

theorem pairwise_indices (pars : PDict String (List V)) : (indices pars).Pairwise (List.Lex (· < ·)) := by
  induction pars with
  | nil => simp [indices]
  | cons p pars ih =>
    simp only [indices]
    rw [List.pairwise_flatMap]
    refine ⟨fun i _ => ?_, ?_⟩
    · rw [List.pairwise_map]
      exact ih.imp (fun h => List.Lex.cons h)
    · refine List.pairwise_lt_range.imp ?_
      intro a b hab x hx y hy
      simp only [List.mem_map] at hx hy
      obtain ⟨x, _, rfl⟩ := hx
      obtain ⟨y, _, rfl⟩ := hy
      exact List.Lex.rel hab

theorem forall₂_flatMap {A B C D : Type} {R : A → B → Prop} {S : C → D → Prop} {f : A → List C} {g : B → List D}
    {l : List A} {m : List B} (h : List.Forall₂ R l m) (hf : ∀ a b, R a b → List.Forall₂ S (f a) (g b)) :
    List.Forall₂ S (l.flatMap f) (m.flatMap g) := by
  induction h with
  | nil => exact List.Forall₂.nil
  | cons h1 _ ih =>
    simp only [List.flatMap_cons]
    exact List.rel_append (hf _ _ h1) ih

theorem forall₂_range {A : Type} (l : List A) :
    List.Forall₂ (fun (i : Nat) (a : A) => l[i]? = some a) (List.range l.length) l := by
  rw [List.forall₂_iff_get]
  refine ⟨by simp, ?_⟩
  intro i h1 h2
  simp

theorem picks_combos (pars : PDict String (List V)) : List.Forall₂ (Picks pars) (indices pars) (combos pars) := by
  induction pars with
  | nil => exact List.Forall₂.cons Picks.nil List.Forall₂.nil
  | cons p pars ih =>
    obtain ⟨k, vs⟩ := p
    simp only [indices, combos]
    refine forall₂_flatMap (forall₂_range vs) ?_
    intro i v hi
    rw [List.forall₂_map_left_iff, List.forall₂_map_right_iff]
    exact ih.imp (fun _ _ h => Picks.cons hi h)

theorem allCombinations_combos (pars : PDict String (List V)) : AllCombinations pars (combos pars) :=
  ⟨indices pars, mem_indices pars, pairwise_indices pars, picks_combos pars⟩

theorem length_combos (pars : PDict String (List V)) :
    (combos pars).length = (pars.map (fun p => p.2.length)).prod := by
  induction pars with
  | nil => rfl
  | cons p pars ih =>
    simp only [combos, List.length_flatMap, List.length_map, List.map_cons, List.prod_cons, ih]
    simp

/-- Keys of the combinations. -/
theorem keys_of_mem_combos {pars : PDict String (List V)} {c : PDict String V} (h : c ∈ combos pars) :
    PDict.keys c = PDict.keys pars := by
  induction pars generalizing c with
  | nil =>
    simp only [combos, List.mem_singleton] at h
    subst h; rfl
  | cons p pars ih =>
    simp only [combos, List.mem_flatMap, List.mem_map] at h
    obtain ⟨v, _, c, hc, rfl⟩ := h
    simp [ih hc]

theorem set_set_comm {d : PDict String V} {k k' : String} (hk : k ∈ PDict.keys d) (hne : k ≠ k') (v v' : V) :
    (d.set k v).set k' v' = (d.set k' v').set k v := by
  induction d with
  | nil => simp at hk
  | cons p d ih =>
    obtain ⟨a, b⟩ := p
    by_cases h1 : a = k
    · subst h1
      simp [PDict.set, hne]
    · by_cases h2 : a = k'
      · subst h2
        simp [PDict.set, h1]
      · have : k ∈ PDict.keys d := by
          simp only [PDict.keys_cons, List.mem_cons] at hk
          rcases hk with hk | hk
          · exact absurd hk.symm h1
          · exact hk
        simp [PDict.set, h1, h2, ih this]

theorem set_set_same (d : PDict String V) (k : String) (v v' : V) : (d.set k v).set k v' = d.set k v' := by
  induction d with
  | nil => simp [PDict.set]
  | cons p d ih =>
    by_cases h : p.1 = k <;> simp [PDict.set, h, ih]

theorem mem_keys_set_of_mem {d : PDict String V} {k : String} (h : k ∈ PDict.keys d) (k' : String) (v : V) :
    k ∈ PDict.keys (d.set k' v) := by
  rw [PDict.keys_set]; split
  · exact h
  · simp [h]

theorem mem_keys_set_self (d : PDict String V) (k : String) (v : V) : k ∈ PDict.keys (d.set k v) := by
  rw [PDict.keys_set]; split
  · assumption
  · simp

theorem update_set_comm {d : PDict String V} {k : String} (hk : k ∈ PDict.keys d) (v : V) (c : PDict String V)
    (hc : k ∉ PDict.keys c) : PDict.update (d.set k v) c = (PDict.update d c).set k v := by
  induction c generalizing d with
  | nil => rfl
  | cons p c ih =>
    simp only [PDict.keys_cons, List.mem_cons, not_or] at hc
    rw [PDict.update_cons, PDict.update_cons, set_set_comm hk hc.1]
    exact ih (mem_keys_set_of_mem hk _ _) hc.2

/-- Keys are never removed. -/
theorem mem_keys_sweep {pars : PDict String (List V)} {k : String} : ∀ {s : Store V}, k ∈ PDict.keys s.parDict →
    k ∈ PDict.keys (sweep pars s).parDict := by
  induction pars with
  | nil => intro s h; exact h
  | cons p pars ih =>
    intro s h
    obtain ⟨a, vs⟩ := p
    simp only [sweep]
    induction vs generalizing s with
    | nil => exact h
    | cons v vs ihv => exact ihv (ih (mem_keys_set_of_mem h _ _))

/-- The two dictionaries are the same once all keys `ks` have been assigned, in that order. -/
def Eqv (ks : List String) (d d' : PDict String V) : Prop :=
  ∀ c, PDict.keys c = ks → PDict.update d c = PDict.update d' c

/-- The store after a sweep, started from any store: the list is extended by all combinations written over the
old dictionary. -/
theorem sweep_spec (pars : PDict String (List V)) (hn : (PDict.keys pars).Nodup) : ∀ s : Store V,
    (sweep pars s).swept = s.swept ++ (combos pars).map (fun c => PDict.update s.parDict c) ∧
    Eqv (PDict.keys pars) (sweep pars s).parDict s.parDict := by
  induction pars with
  | nil =>
    intro s
    exact ⟨by simp [sweep, combos, PDict.update_nil], fun c _ => rfl⟩
  | cons p pars ih =>
    obtain ⟨k, vs⟩ := p
    simp only [PDict.keys_cons, List.nodup_cons] at hn
    -- one round of the loop
    have hround : ∀ (s : Store V) (v : V), Eqv (k :: PDict.keys pars)
        (sweep pars { s with parDict := s.parDict.set k v }).parDict s.parDict := by
      intro s v c hc
      obtain ⟨_, h2⟩ := ih hn.2 { s with parDict := s.parDict.set k v }
      cases c with
      | nil => simp at hc
      | cons q c =>
        simp only [PDict.keys_cons, List.cons.injEq] at hc
        obtain ⟨hq, hc⟩ := hc
        have hkc : k ∉ PDict.keys c := by rw [hc]; exact hn.1
        rw [PDict.update_cons, PDict.update_cons, hq,
          update_set_comm (mem_keys_sweep (mem_keys_set_self _ _ _)) _ c hkc, h2 c hc,
          ← update_set_comm (mem_keys_set_self _ _ _) _ c hkc, set_set_same]
    have hloop : ∀ (vs : List V) (s0 s : Store V), Eqv (k :: PDict.keys pars) s.parDict s0.parDict →
        (vs.foldl (fun s v => sweep pars { s with parDict := s.parDict.set k v }) s).swept =
          s.swept ++ (vs.flatMap (fun v => (combos pars).map ((k, v) :: ·))).map
            (fun c => PDict.update s0.parDict c) ∧
        Eqv (k :: PDict.keys pars)
          (vs.foldl (fun s v => sweep pars { s with parDict := s.parDict.set k v }) s).parDict s0.parDict := by
      intro vs
      induction vs with
      | nil => intro s0 s h; exact ⟨by simp, h⟩
      | cons v vs ihv =>
        intro s0 s h
        obtain ⟨h1, h2⟩ := ihv s0 (sweep pars { s with parDict := s.parDict.set k v })
          (fun c hc => (hround s v c hc).trans (h c hc))
        refine ⟨?_, h2⟩
        rw [List.foldl_cons, h1, (ih hn.2 _).1]
        simp only [List.flatMap_cons, List.map_append, List.append_assoc, List.map_map]
        congr 2
        apply List.map_congr_left
        intro c hc
        exact h ((k, v) :: c) (by simp [keys_of_mem_combos hc])
    intro s
    obtain ⟨h1, h2⟩ := hloop vs s s (fun _ _ => rfl)
    exact ⟨h1, h2⟩

theorem update_empty {c : PDict String V} (hc : (PDict.keys c).Nodup) : PDict.update [] c = c := by
  have key : ∀ (c d : PDict String V), (PDict.keys (d ++ c)).Nodup → PDict.update d c = d ++ c := by
    intro c
    induction c with
    | nil => intro d _; simp [PDict.update_nil]
    | cons p c ih =>
      intro d h
      have hp : p.1 ∉ PDict.keys d := by
        rw [PDict.keys_append, List.nodup_append] at h
        intro hp
        exact h.2.2 _ hp _ (by simp) rfl
      rw [PDict.update_cons, PDict.set_of_not_mem hp, ih _ (by simpa using h)]
      simp
  exact key c [] (by simpa using hc)

end Verif.Sweep
