import Verif.Block.Own

/-!
# C39: registered names, over all histories
-/

namespace Verif.Block
open Verif

variable {α T Θ R : Type}

theorem registerAll_other (l : List (String × Ref)) (n : String) : ∀ (reg : PDict String Ref), (∀ p ∈ l, p.1 ≠ n) →
    PDict.get? (registerAll reg l).1 n = PDict.get? reg n := by
  induction l with
  | nil => exact fun _ _ => rfl
  | cons p l ih =>
    intro reg h
    unfold registerAll
    cases hr : register reg p.1 p.2 with
    | error e => rfl
    | ok reg1 =>
      have hreg : reg1 = reg.set p.1 p.2 := by
        unfold register at hr
        split at hr
        · cases hr
        · cases hr; rfl
      dsimp only
      rw [ih reg1 fun q hq => h q (List.mem_cons_of_mem _ hq), hreg, PDict.get?_set, if_neg (h p (List.mem_cons_self ..))]

theorem registerEnl_other (keepZero : Bool) (es ec : Enl α) (reg : PDict String Ref) (n : String) (hn : ∀ k, n ≠ "pt_enlarge_" ++ k) :
    PDict.get? (registerEnl keepZero es ec reg).1 n = PDict.get? reg n := by
  unfold registerEnl
  split
  · rfl
  · refine registerAll_other _ n reg fun p hp he => ?_
    rcases List.mem_append.1 hp with hq | hq
    · obtain ⟨_, _, _, _, _, e1, _⟩ := (mem_enlNames _ _ p.1 p.2).1 hq
      exact hn _ (he.symm.trans e1)
    · obtain ⟨_, _, _, _, _, e1, _⟩ := (mem_enlNames _ _ p.1 p.2).1 hq
      exact hn _ (he.symm.trans e1)

theorem getOrCreate_other (cfg : Cfg α T Θ R) (r : R) (ps pc : TDicts α) (s : St α T Θ) (n : String) (hn : ∀ k, n ≠ "pt_enlarge_" ++ k) :
    PDict.get? (getOrCreate cfg r ps pc s).1.reg n = PDict.get? s.reg n := by
  unfold getOrCreate
  split
  · split
    · rfl
    · split
      · rfl
      · rename_i es ec _
        have h := registerEnl_other cfg.keepZero es ec s.reg n hn
        split
        · rename_i hre
          rw [hre] at h
          exact h
        · rename_i hre
          rw [hre] at h
          exact h
  · rfl

theorem passThrough_other (cfg : Cfg α T Θ R) (r : R) (ps pc : Option (TDicts α)) (s : St α T Θ) (n : String) (hn : ∀ k, n ≠ "pt_enlarge_" ++ k) :
    PDict.get? (passThrough cfg r ps pc s).1.reg n = PDict.get? s.reg n := by
  unfold passThrough
  split
  · rename_i ps pc
    split
    · have h := getOrCreate_other cfg r ps pc s n hn
      split
      · rename_i he
        rw [he] at h
        exact h
      · rename_i he
        rw [he] at h
        exact h
    · rfl
  · rfl

/-- C39: a forward pass, also one that raises an exception, leaves every registered name alone that is not the name of an enlargement parameter. -/
theorem C39_keeps [Zero α] (cfg : Cfg α T Θ R) (r : R) (i : Inp α) (s : St α T Θ) (n : String) (hn : ∀ k, n ≠ "pt_enlarge_" ++ k) :
    PDict.get? (forward cfg r i s).1.reg n = PDict.get? s.reg n := by
  unfold forward
  split
  · rfl
  have h1 := passThrough_other cfg r i.state i.costate s n hn
  split
  · rename_i h
    rw [h] at h1
    exact h1
  rename_i s1 ps pc h
  rw [h] at h1
  split
  · exact h1
  rename_i data pad _
  have g := (initial_same cfg data ps pc pad s1).2.1.reg
  split
  · rename_i hi
    rw [hi] at g
    dsimp only at g ⊢
    rw [g]
    exact h1
  rename_i s2 x0 plans hi
  rw [hi] at g
  dsimp only at g
  split
  · dsimp only
    rw [g]
    exact h1
  · dsimp only
    rw [g]
    exact h1

/-- C39: over any history of forward passes (successful or not), changes of the integration time, moves and training steps, a name that is not the name of an enlargement parameter refers to the object it
referred to at the beginning. -/
theorem C39_keeps_always [Zero α] [OfNat T 0] (cfg : Cfg α T Θ R) (ops : List (Op α T Θ R)) (n : String) (hn : ∀ k, n ≠ "pt_enlarge_" ++ k) :
    ∀ s : St α T Θ, PDict.get? (after cfg s ops).reg n = PDict.get? s.reg n := by
  induction ops with
  | nil => exact fun _ => rfl
  | cons op ops ih =>
    intro s
    have := ih (step cfg s op)
    rw [show after cfg s (op :: ops) = after cfg (step cfg s op) ops from rfl, this]
    cases op with
    | forward r i => exact C39_keeps cfg r i s n hn
    | setTime t => rfl
    | setTimeVector v => rfl
    | move => rfl
    | train f g => rfl

/-- A first pass that fails while registering (the costates have a name with a dot) keeps the own parameters. -/
example : ∃ s', forward (demo "b" true) () { demoPass with costate := some [("a", [("p_q.1", ⟨[1, 1, 1], [3]⟩)])] } (demoBlock 2) = (s', .error .keyError) ∧
    PDict.get? s'.reg "q1" = some (.state "q1") := ⟨_, rfl, rfl⟩

/-- Parts of a name without dots, joined by `sep`. -/
def joined (sep : List Char) (parts : List (List Char)) : String := String.ofList (sep.intercalate parts)

theorem undot_joined (parts : List (List Char)) (h : ∀ p ∈ parts, '.' ∉ p) : undot (joined ['.'] parts) = joined ['_', '_'] parts := by
  unfold undot joined
  rw [String.toList_ofList]
  congr 1
  have hp : ∀ p : List Char, '.' ∉ p → (p.flatMap fun c => if c = '.' then ['_', '_'] else [c]) = p := by
    intro p
    induction p with
    | nil => intro _; rfl
    | cons c p ih =>
      intro hc
      rw [List.mem_cons, not_or] at hc
      rw [List.flatMap_cons, if_neg fun e => hc.1 e.symm, ih hc.2]
      rfl
  induction parts with
  | nil => rfl
  | cons p parts ih =>
    cases parts with
    | nil => simpa [List.intercalate] using hp p (h p (by simp))
    | cons q parts =>
      have := ih fun x hx => h x (by simp [hx])
      simp only [List.intercalate, List.intersperse_cons_cons, List.flatten_cons, List.flatMap_append] at this ⊢
      rw [this, hp p (h p (by simp))]
      rfl

/-- C39: a parameter of the integrand whose name has the parts `parts` (joined by dots) is registered under the parts joined by two underscores each: this name exists, and, if no other parameter of the block
has it, refers to the parameter. -/
theorem C39_integrand_names [OfNat T 0] [OfNat T 1] (cfg : Cfg α T Θ R) (a : Args α T) (th : Θ) (s : St α T Θ) (h : construct cfg a th = .ok s) (parts : List (List Char))
    (hp : ∀ p ∈ parts, '.' ∉ p) (hn : joined ['.'] parts ∈ a.integrandNames) :
    joined ['_', '_'] parts ∈ PDict.keys s.reg ∧
      ((∀ r', Owned cfg a r' → nameOf r' = joined ['_', '_'] parts → r' = .integrand (joined ['.'] parts)) →
        PDict.get? s.reg (joined ['_', '_'] parts) = some (.integrand (joined ['.'] parts))) := by
  have hu := undot_joined parts hp
  constructor
  · obtain ⟨_, _, reg, _, hint⟩ := construct_ok h
    have := (foldlM_register hint).2 (undot (joined ['.'] parts)) (.inr (List.mem_map.2 ⟨(undot (joined ['.'] parts), .integrand (joined ['.'] parts)), List.mem_map.2 ⟨_, hn, rfl⟩, rfl⟩))
    rwa [hu] at this
  · intro huniq
    have := (C39_own cfg a th s h).2 (.integrand (joined ['.'] parts)) hn (fun r' hr he => huniq r' hr (he.trans hu))
    rw [← hu]
    exact this

example : joined ['.'] ["nn".toList, "w".toList] ∈ (demoArgs 1).integrandNames ∧ joined ['_', '_'] ["nn".toList, "w".toList] = "nn__w" := ⟨by decide, by decide⟩

/-- C39: two parameters of the integrand can lose one of them: `a.b` and `a__b` get the same name, and the first one is no longer among the parameters of the block. -/
theorem C39_dots_collide : ∃ s, construct (demo "a" true) { demoArgs 1 with integrandNames := ["a.b", "a__b"] } () = .ok s ∧
    PDict.get? s.reg "a__b" = some (.integrand "a__b") ∧ Ref.integrand "a.b" ∉ s.reg.map Prod.snd := ⟨_, rfl, by decide +kernel, by decide +kernel⟩

end Verif.Block
