import Verif.Census.Model
import Verif.Census.Spec
import Verif.ResNet.Built
import Verif.Block.Names

/-!
# Parameters of one block
-/

namespace Verif.Census
open Verif Block ResNet Tensor

variable {α T Θ R β : Type}

/-! ## Enlargement parameters exist only where something grows -/

/-- No stored entry is without effect. -/
def Proper (e : Enl α) : Prop := ∀ l, e = some l → ∀ b ∈ l, ∀ p ∈ b.2, ∀ x, p.2 = some x → x.2.any (fun d => decide (0 < d)) = true

theorem mem_set {V : Type} (d : SDict String V) (k : String) (v : V) (p : String × V) (h : p ∈ SDict.set d k v) : p = (k, v) ∨ p ∈ d := by
  induction d with
  | nil => exact .inl (by simpa [SDict.set] using h)
  | cons q d ih =>
    unfold SDict.set at h
    split at h
    · rcases List.mem_cons.1 h with rfl | h
      · exact .inl rfl
      · exact .inr h
    · split at h
      · rcases List.mem_cons.1 h with rfl | h
        · exact .inl rfl
        · exact .inr (List.mem_cons_of_mem _ h)
      · rcases List.mem_cons.1 h with rfl | h
        · exact .inr (by simp)
        · rcases ih h with h | h
          · exact .inl h
          · exact .inr (List.mem_cons_of_mem _ h)

theorem store_proper (l : Dicts.DDict (Enlarge.Entry α)) (dk k : String) (e : Enlarge.Entry α) (h : Proper (some l))
    (he : ∀ x, e = some x → x.2.any (fun d => decide (0 < d)) = true) : Proper (some (Enlarge.store l dk k e)) := by
  intro l' hl' b hb p hp x hx
  cases hl'
  unfold Enlarge.store at hb
  rcases mem_set _ _ _ _ hb with rfl | hb
  · rcases mem_set _ _ _ _ hp with rfl | hp
    · exact he x hx
    · cases hg : SDict.get? l dk with
      | none => rw [hg] at hp; cases hp
      | some d =>
        rw [hg] at hp
        exact h l rfl _ (SDict.mem_of_get?_eq_some hg) p hp x hx
  · exact h l rfl b hb p hp x hx

theorem createOne_proper (desired current : List Nat) (c : Nat × List Int) (h : Enlarge.createOne desired current = .ok (some c)) :
    c.2.any (fun d => decide (0 < d)) = true := by
  unfold Enlarge.createOne at h
  cases hd : Enlarge.diffLoop desired 0 current with
  | error e => rw [hd] at h; cases h
  | ok diff =>
    rw [hd] at h
    simp only [bind, Except.bind] at h
    split at h
    · rename_i hany
      cases hr : Enlarge.rawCount desired current with
      | error e => rw [hr] at h; cases h
      | ok n =>
        rw [hr] at h
        cases h
        exact hany
    · cases h

theorem createStep_proper (mk : String → String → Nat → List α) (k : String) (st st' : Dicts.DDict (Enlarge.Entry α) × List Nat)
    (b : String × TDict α) (h : Enlarge.createStep mk k st b = .ok st') (hp : Proper (some st.1)) : Proper (some st'.1) := by
  unfold Enlarge.createStep at h
  split at h
  · cases h
  · rename_i t _
    cases hs : Enlarge.setChannel st.2 t.shape with
    | error e => rw [hs] at h; cases h
    | ok d =>
      rw [hs] at h
      simp only [bind, Except.bind] at h
      cases hc : Enlarge.createOne d t.shape with
      | error e => rw [hc] at h; cases h
      | ok c =>
        rw [hc] at h
        cases h
        refine store_proper _ _ _ _ hp ?_
        intro x hx
        cases c with
        | none => cases hx
        | some c =>
          cases hx
          exact createOne_proper _ _ _ hc

theorem foldlM_inv {A B : Type} (P : A → Prop) (f : A → B → Py A) (hf : ∀ a b a', P a → f a b = .ok a' → P a') (l : List B) (a a' : A) (h : P a)
    (hl : l.foldlM f a = .ok a') : P a' := by
  induction l generalizing a with
  | nil => cases hl; exact h
  | cons b l ih =>
    rw [List.foldlM_cons] at hl
    cases hb : f a b with
    | error e => rw [hb] at hl; cases hl
    | ok a1 =>
      rw [hb] at hl
      exact ih a1 (hf a b a1 h hb) hl

theorem create_proper (mk : String → String → Nat → List α) (g : TDicts α) (desired : Option (TDict α)) (dims : Option (List Nat)) (e : Enl α)
    (h : Enlarge.create mk g desired dims = .ok e) : Proper e := by
  unfold Enlarge.create at h
  split at h
  · rename_i d _
    cases hf : d.foldlM (fun (enl : Dicts.DDict (Enlarge.Entry α)) p => do .ok (← Enlarge.createKey mk g enl p).1) [] with
    | error x => rw [hf] at h; cases h
    | ok r =>
      rw [hf] at h
      cases h
      refine foldlM_inv (fun a => Proper (some a)) _ ?_ d [] r ?_ hf
      · intro a p a' ha hk
        cases hc : Enlarge.createKey mk g a p with
        | error x => rw [hc] at hk; cases hk
        | ok y =>
          rw [hc] at hk
          cases hk
          exact foldlM_inv (fun a => Proper (some a.1)) _ (fun a b a' ha hs => createStep_proper mk p.1 a a' b hs ha) g _ y ha hc
      · intro l hl b hb
        cases hl
        cases hb
  · cases h
    intro l hl
    cases hl

/-! ## What is registered -/

/-- The names of a block are those in `o`, and after them those of the enlargement parameters. -/
structure Listed (o : PDict String Ref) (s : St α T Θ) : Prop where
  reg : registerAll o (enlNames .enlState s.enlState ++ enlNames .enlCostate s.enlCostate) = (s.reg, .ok ())
  state : Proper s.enlState
  costate : Proper s.enlCostate

theorem enlNames_of_not_exists (s : St α T Θ) (h : enlExists s = false) :
    enlNames .enlState s.enlState ++ enlNames .enlCostate s.enlCostate = [] := by
  unfold enlExists at h
  rw [Bool.or_eq_false_iff] at h
  have h1 : s.enlState = none := by simpa using h.1
  rw [h1]
  cases hc : s.enlCostate with
  | none => rfl
  | some l =>
    cases l with
    | nil => rfl
    | cons a l =>
      rw [hc] at h
      exact absurd h.2 (by simp)

theorem getOrCreate_listed (cfg : Cfg α T Θ R) (r : R) (ps pc : TDicts α) (o : PDict String Ref) (s s' : St α T Θ)
    (h : getOrCreate cfg r ps pc s = (s', .ok ())) (hl : Listed o s) : Listed o s' := by
  unfold getOrCreate at h
  split at h
  · split at h
    · cases h
    · rename_i hex
      have hex : enlExists s = false := by simpa using hex
      split at h
      · cases h
      · rename_i es ec hc
        have hreg : s.reg = o := by
          have := hl.reg
          rw [enlNames_of_not_exists s hex] at this
          exact (Prod.ext_iff.1 this).1.symm
        cases he : Enlarge.create (cfg.mkState r) ps s.state cfg.enlargementDims with
        | error x => rw [he] at hc; cases hc
        | ok es' =>
          rw [he] at hc
          simp only [bind, Except.bind] at hc
          cases he2 : Enlarge.create (cfg.mkCostate r) pc s.costate cfg.enlargementDims with
          | error x => rw [he2] at hc; cases hc
          | ok ec' =>
            rw [he2] at hc
            cases hc
            split at h
            · cases h
            · rename_i reg u hr
              cases h
              refine ⟨?_, create_proper _ _ _ _ _ he, create_proper _ _ _ _ _ he2⟩
              unfold registerEnl at hr
              split at hr
              · cases hr
              · rw [← hreg]
                exact hr
  · cases h
    exact hl

/-- What a successful pass leaves behind. -/
theorem forward_listed [Zero α] (cfg : Cfg α T Θ R) (r : R) (i : Inp α) (o : PDict String Ref) (s s' : St α T Θ) (out : Out α)
    (h : Block.forward cfg r i s = (s', .ok out)) : s'.notYet = false ∧ s'.state = s.state ∧ s'.costate = s.costate ∧ (Listed o s → Listed o s') := by
  have hsame := forward_same cfg r i s
  rw [h] at hsame
  refine ⟨hsame.2.1 out rfl, hsame.1.state, hsame.1.costate, fun hl => ?_⟩
  unfold Block.forward at h
  split at h
  · cases h
  split at h
  · cases h
  rename_i s1 ps pc hp
  have h1 : Listed o s1 := by
    unfold passThrough at hp
    split at hp
    · split at hp
      · split at hp
        · cases hp
        · rename_i hg
          have := getOrCreate_listed _ _ _ _ o _ _ hg hl
          have he := congrArg Prod.fst hp
          dsimp only at he
          rw [← he]
          exact this
      · cases hp; exact hl
    · cases hp; exact hl
  split at h
  · cases h
  rename_i data pad _
  have g := (initial_same cfg data ps pc pad s1).2.1
  split at h
  · cases h
  rename_i s2 x0 plans hi
  rw [hi] at g
  have h2 : Listed o s2 := by
    refine ⟨?_, ?_, ?_⟩
    · rw [show s2.enlState = s1.enlState from g.enlState, show s2.enlCostate = s1.enlCostate from g.enlCostate, show s2.reg = s1.reg from g.reg]
      exact h1.reg
    · rw [show s2.enlState = s1.enlState from g.enlState]; exact h1.state
    · rw [show s2.enlCostate = s1.enlCostate from g.enlCostate]; exact h1.costate
  split at h
  · cases h
  · cases h
    exact ⟨h2.reg, h2.state, h2.costate⟩

theorem enlNames_train (f : Ref → List α → List α) (reg : PDict String Ref) (ref : String → String → Ref) (l : Dicts.DDict (Enlarge.Entry α)) :
    enlNames ref (some (l.map fun b => (b.1, b.2.map fun p => (p.1, p.2.map fun e => (newValues f reg (ref b.1 p.1) e.1, e.2))))) = enlNames ref (some l) := by
  unfold enlNames
  simp only [Option.getD_some, List.flatMap_map, List.filterMap_map]
  congr 1
  funext b
  congr 1
  funext p
  dsimp only [Function.comp]
  cases p.2 <;> rfl

theorem proper_train (f : Ref → List α → List α) (reg : PDict String Ref) (ref : String → String → Ref) (e : Enl α) (h : Proper e) :
    Proper (e.map fun l => l.map fun b => (b.1, b.2.map fun p => (p.1, p.2.map fun e => (newValues f reg (ref b.1 p.1) e.1, e.2)))) := by
  intro l' hl' b hb p hp x hx
  cases e with
  | none => cases hl'
  | some l =>
    cases hl'
    obtain ⟨b0, hb0, rfl⟩ := List.mem_map.1 hb
    obtain ⟨p0, hp0, rfl⟩ := List.mem_map.1 hp
    dsimp only at hx
    cases hq : p0.2 with
    | none => rw [hq] at hx; cases hx
    | some y =>
      rw [hq] at hx
      cases hx
      exact h l rfl b0 hb0 p0 hp0 y hq

theorem train_listed (f : Ref → List α → List α) (g : Θ → Θ) (o : PDict String Ref) (s : St α T Θ) (h : Listed o s) : Listed o (train f g s) := by
  refine ⟨?_, proper_train f s.reg .enlState _ h.state, proper_train f s.reg .enlCostate _ h.costate⟩
  have e1 : enlNames .enlState (train f g s).enlState = enlNames .enlState s.enlState := by
    show enlNames _ (s.enlState.map _) = _
    cases s.enlState with
    | none => rfl
    | some l => exact enlNames_train f s.reg .enlState l
  have e2 : enlNames .enlCostate (train f g s).enlCostate = enlNames .enlCostate s.enlCostate := by
    show enlNames _ (s.enlCostate.map _) = _
    cases s.enlCostate with
    | none => rfl
    | some l => exact enlNames_train f s.reg .enlCostate l
  rw [e1, e2]
  exact h.reg

end Verif.Census
