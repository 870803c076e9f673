import Verif.Block.Props

/-!
# C39 (what a new block owns), C41 (rejected inputs)
-/

namespace Verif.Block
open Verif

variable {α T Θ R : Type}

/-! ## Specification -/

/-- The name under which a parameter of a new block is registered. -/
def nameOf : Ref → String
  | .state k => k
  | .costate k => k
  | .enlState _ k => "pt_enlarge_" ++ k
  | .enlCostate _ k => "pt_enlarge_" ++ k
  | .integrand n => undot n
  | .free i o k => "pf_timestep" ++ showNat i ++ "_" ++ o ++ "_" ++ k

/-- Which parameters a new block should have: with particles its own states (unless they are kept at zero) and costates; without
particles one set of parameters, or one per time step; always the parameters of the integrand; no enlargement parameters. -/
def Owned (cfg : Cfg α T Θ R) (a : Args α T) : Ref → Prop
  | .state k => a.freeRnn = false ∧ a.freeTime = false ∧ cfg.keepZero = false ∧ k ∈ (a.state.getD []).keys
  | .costate k => a.freeRnn = false ∧ a.freeTime = false ∧ ∃ n ∈ (a.state.getD []).keys, k = "p_" ++ n
  | .enlState _ _ => False
  | .enlCostate _ _ => False
  | .integrand n => n ∈ a.integrandNames
  | .free i o k => (a.freeRnn = true ∧ i = 0 ∨ a.freeRnn = false ∧ a.freeTime = true ∧ i < a.freeSteps) ∧
      ∃ ks, (o, ks) ∈ a.objects ∧ k ∈ ks

/-! ## Registrations -/

/-- Registrations one after the other: a name refers to the last object registered under it. -/
theorem foldlM_register {l : List (String × Ref)} {reg reg' : PDict String Ref}
    (h : l.foldlM (fun reg p => register reg p.1 p.2) reg = (.ok reg' : Py _)) :
    (∀ n r, PDict.get? reg' n = some r → PDict.get? reg n = some r ∨ (n, r) ∈ l) ∧
      (∀ n, n ∈ reg.keys ∨ n ∈ l.map Prod.fst → n ∈ PDict.keys reg') := by
  induction l generalizing reg with
  | nil =>
    cases h
    exact ⟨fun n r hr => .inl hr, fun n hn => hn.elim id (by simp)⟩
  | cons p l ih =>
    rw [List.foldlM_cons] at h
    cases hr : register reg p.1 p.2 with
    | error e => rw [hr] at h; cases h
    | ok reg1 =>
      rw [hr] at h
      obtain ⟨h1, h2⟩ := ih h
      have hreg : reg1 = reg.set p.1 p.2 := by
        unfold register at hr
        split at hr
        · cases hr
        · cases hr; rfl
      constructor
      · intro n r hn
        rcases h1 n r hn with h3 | h3
        · rw [hreg, PDict.get?_set] at h3
          split at h3
          · rename_i he
            cases h3
            exact .inr (by rw [← he]; exact List.mem_cons_self ..)
          · exact .inl h3
        · exact .inr (List.mem_cons_of_mem _ h3)
      · intro n hn
        apply h2
        rw [hreg, PDict.keys_set]
        rcases hn with hn | hn
        · left
          split
          · exact hn
          · exact List.mem_append_left _ hn
        · rcases List.mem_cons.1 hn with rfl | hn
          · left
            split
            · assumption
            · simp
          · exact .inr hn

theorem mem_freeNames (steps : Nat) (objects : List (String × List String)) (n : String) (r : Ref) :
    (n, r) ∈ freeNames steps objects ↔ n = nameOf r ∧ ∃ i o k, r = .free i o k ∧ i < steps ∧ ∃ ks, (o, ks) ∈ objects ∧ k ∈ ks := by
  unfold freeNames
  simp only [List.mem_flatMap, List.mem_range, List.mem_map, Prod.mk.injEq]
  constructor
  · rintro ⟨i, hi, o, ho, k, hk, rfl, rfl⟩
    exact ⟨rfl, i, o.1, k, rfl, hi, o.2, ho, hk⟩
  · rintro ⟨rfl, i, o, k, rfl, hi, ks, ho, hk⟩
    exact ⟨i, hi, (o, ks), ho, k, hk, rfl, rfl⟩

/-- The dictionary of costates: sorted, one entry for each state. -/
theorem costate_fold (like : Tensor α → Tensor α) (d acc : TDict α) (hacc : SDict.Sorted acc) (hd : d.keys.Nodup) :
    SDict.Sorted (d.foldl (fun (acc : TDict α) p => acc.set ("p_" ++ p.1) (like p.2)) acc) ∧
      (∀ n, SDict.get? (d.foldl (fun (acc : TDict α) p => acc.set ("p_" ++ p.1) (like p.2)) acc) ("p_" ++ n) =
        ((SDict.get? d n).map like).or (SDict.get? acc ("p_" ++ n))) := by
  induction d generalizing acc with
  | nil => exact ⟨hacc, fun n => by simp⟩
  | cons p d ih =>
    rw [SDict.keys, List.map_cons, List.nodup_cons] at hd
    obtain ⟨h1, h2⟩ := ih (acc.set ("p_" ++ p.1) (like p.2)) (hacc.set _ _) hd.2
    refine ⟨h1, fun n => ?_⟩
    rw [List.foldl_cons, h2 n, SDict.get?_set _ hacc, SDict.get?_cons]
    by_cases hn : p.1 = n
    · subst hn
      rw [SDict.get?_eq_none_iff.2 hd.1]
      simp
    · rw [if_neg hn, if_neg fun hc => hn (by simpa using hc)]

theorem costate_keys (like : Tensor α → Tensor α) (d acc : TDict α) (k : String) :
    k ∈ (d.foldl (fun (acc : TDict α) p => acc.set ("p_" ++ p.1) (like p.2)) acc).keys ↔
      k ∈ acc.keys ∨ ∃ n ∈ d.keys, k = "p_" ++ n := by
  induction d generalizing acc with
  | nil => simp
  | cons p d ih =>
    rw [List.foldl_cons, ih, SDict.mem_keys_set]
    simp only [SDict.keys, List.map_cons, List.mem_cons, exists_eq_or_imp]
    tauto

theorem costateOf_keys (like : Tensor α → Tensor α) (st : Option (TDict α)) (k : String) :
    k ∈ ((costateOf like st).getD []).keys ↔ ∃ n ∈ (st.getD []).keys, k = "p_" ++ n := by
  cases st with
  | none => simp [costateOf]
  | some d =>
    show k ∈ (d.foldl (fun (acc : TDict α) p => acc.set ("p_" ++ p.1) (like p.2)) []).keys ↔ _
    rw [costate_keys]
    simp

/-- What a successful construction does. -/
theorem construct_ok [OfNat T 0] [OfNat T 1] {cfg : Cfg α T Θ R} {a : Args α T} {th : Θ} {s : St α T Θ} (h : construct cfg a th = .ok s) :
    s.state = a.state ∧ s.costate = costateOf a.like a.state ∧ ∃ reg,
      (if a.freeRnn || a.freeTime then
          (freeNames (if a.freeRnn then 1 else a.freeSteps) a.objects).foldlM (fun reg p => register reg p.1 p.2) ([] : PDict String Ref)
        else registerOwn cfg.keepZero [] a.state (costateOf a.like a.state)) = .ok reg ∧
      (a.integrandNames.map fun n => (undot n, Ref.integrand n)).foldlM (fun reg p => register reg p.1 p.2) reg = .ok s.reg := by
  unfold construct at h
  split at h
  · cases h
  split at h
  · cases h
  split at h
  · cases h
  split at h
  · cases h
  dsimp only at h
  revert h
  generalize (if (a.freeRnn || a.freeTime) = true then _ else _ : Py (PDict String Ref)) = r1
  rcases r1 with e | reg
  · intro h; cases h
  simp only [bind, Except.bind]
  generalize hr2 : List.foldlM (m := Except Err) (fun reg (p : String × Ref) => register reg p.1 p.2) reg _ = r2
  rcases r2 with e | reg'
  · intro h; cases h
  intro h
  cases h
  exact ⟨rfl, rfl, reg, rfl, hr2⟩

theorem registerOwn_ok {keepZero : Bool} {st cs : Option (TDict α)} {reg : PDict String Ref} (h : registerOwn keepZero [] st cs = .ok reg) :
    (∀ n r, PDict.get? reg n = some r → (keepZero = false ∧ ∃ k ∈ (st.getD []).keys, n = k ∧ r = .state k) ∨
        ∃ k ∈ (cs.getD []).keys, n = k ∧ r = .costate k) ∧
      (∀ n, (keepZero = false ∧ n ∈ (st.getD []).keys) ∨ n ∈ (cs.getD []).keys → n ∈ PDict.keys reg) := by
  unfold registerOwn at h
  cases keepZero with
  | true =>
    have h' : ((cs.getD []).keys.map fun k => (k, Ref.costate k)).foldlM (fun reg p => register reg p.1 p.2) [] = (.ok reg : Py _) := by
      revert h
      rcases st with _ | _ | ⟨p, d⟩
      · exact id
      · exact id
      · intro h; cases h
    obtain ⟨h1, h2⟩ := foldlM_register h'
    constructor
    · intro n r hr
      rcases h1 n r hr with h3 | h3
      · cases h3
      · obtain ⟨k, hk, e⟩ := List.mem_map.1 h3
        cases e
        exact .inr ⟨n, hk, rfl, rfl⟩
    · rintro n (⟨hc, _⟩ | hn)
      · cases hc
      · exact h2 n (.inr (by simpa using hn))
  | false =>
    rw [if_neg (by simp)] at h
    revert h
    generalize hr1 : List.foldlM (m := Except Err) (fun reg (p : String × Ref) => register reg p.1 p.2) [] _ = r1
    rcases r1 with e | reg1
    · intro h; cases h
    intro h
    obtain ⟨h1, h2⟩ := foldlM_register hr1
    obtain ⟨h3, h4⟩ := foldlM_register (reg := reg1) h
    constructor
    · intro n r hr
      rcases h3 n r hr with h5 | h5
      · rcases h1 n r h5 with h6 | h6
        · cases h6
        · obtain ⟨k, hk, e⟩ := List.mem_map.1 h6
          cases e
          exact .inl ⟨rfl, n, hk, rfl, rfl⟩
      · obtain ⟨k, hk, e⟩ := List.mem_map.1 h5
        cases e
        exact .inr ⟨n, hk, rfl, rfl⟩
    · rintro n (⟨_, hn⟩ | hn)
      · exact h4 n (.inl (h2 n (.inr (by simpa using hn))))
      · exact h4 n (.inr (by simpa using hn))

/-! ## Theorems -/

/-- C39: every name of a new block refers to a parameter it should have, under the right name; every parameter it should have has a
name, and is reached by it unless another parameter has the same name. -/
theorem C39_own [OfNat T 0] [OfNat T 1] (cfg : Cfg α T Θ R) (a : Args α T) (th : Θ) (s : St α T Θ) (h : construct cfg a th = .ok s) :
    (∀ n r, PDict.get? s.reg n = some r → Owned cfg a r ∧ n = nameOf r) ∧
      (∀ r, Owned cfg a r → (∀ r', Owned cfg a r' → nameOf r' = nameOf r → r' = r) → PDict.get? s.reg (nameOf r) = some r) := by
  obtain ⟨_, _, reg, hreg, hint⟩ := construct_ok h
  obtain ⟨i1, i2⟩ := foldlM_register hint
  -- the registrations before those of the integrand
  have key : (∀ n r, PDict.get? reg n = some r → Owned cfg a r ∧ n = nameOf r) ∧
      (∀ r, Owned cfg a r → (∃ m, r = .integrand m) ∨ nameOf r ∈ PDict.keys reg) := by
    cases hf : (a.freeRnn || a.freeTime) with
    | true =>
      rw [hf, if_pos rfl] at hreg
      obtain ⟨f1, f2⟩ := foldlM_register hreg
      constructor
      · intro n r hr
        rcases f1 n r hr with h1 | h1
        · cases h1
        · obtain ⟨rfl, i, o, k, rfl, hi, hk⟩ := (mem_freeNames _ _ _ _).1 h1
          refine ⟨⟨?_, hk⟩, rfl⟩
          cases hrnn : a.freeRnn with
          | true => rw [hrnn] at hi; simp at hi; exact .inl ⟨rfl, hi⟩
          | false =>
            rw [hrnn] at hi hf
            simp at hi hf
            exact .inr ⟨rfl, hf, hi⟩
      · intro r hr
        cases r with
        | state k => obtain ⟨h1, h2, _⟩ := hr; rw [h1, h2] at hf; cases hf
        | costate k => obtain ⟨h1, h2, _⟩ := hr; rw [h1, h2] at hf; cases hf
        | enlState b k => exact hr.elim
        | enlCostate b k => exact hr.elim
        | integrand m => exact .inl ⟨m, rfl⟩
        | free i o k =>
          right
          refine f2 _ (.inr (List.mem_map_of_mem (f := Prod.fst) ((mem_freeNames _ _ (nameOf (.free i o k)) (.free i o k)).2
            ⟨rfl, i, o, k, rfl, ?_, hr.2⟩)))
          rcases hr.1 with ⟨h1, h2⟩ | ⟨h1, _, h2⟩
          · rw [h1, h2]; simp
          · rw [h1]; simpa using h2
    | false =>
      rw [hf, if_neg (by simp)] at hreg
      obtain ⟨f1, f2⟩ := registerOwn_ok hreg
      simp only [Bool.or_eq_false_iff] at hf
      constructor
      · intro n r hr
        rcases f1 n r hr with ⟨hz, k, hk, rfl, rfl⟩ | ⟨k, hk, rfl, rfl⟩
        · exact ⟨⟨hf.1, hf.2, hz, hk⟩, rfl⟩
        · exact ⟨⟨hf.1, hf.2, (costateOf_keys _ _ _).1 hk⟩, rfl⟩
      · intro r hr
        cases r with
        | state k => exact .inr (f2 k (.inl ⟨hr.2.2.1, hr.2.2.2⟩))
        | costate k => exact .inr (f2 k (.inr ((costateOf_keys _ _ _).2 hr.2.2)))
        | enlState b k => exact hr.elim
        | enlCostate b k => exact hr.elim
        | integrand m => exact .inl ⟨m, rfl⟩
        | free i o k =>
          exfalso
          rcases hr.1 with ⟨h1, _⟩ | ⟨_, h1, _⟩
          · rw [hf.1] at h1; cases h1
          · rw [hf.2] at h1; cases h1
  have fwd : ∀ n r, PDict.get? s.reg n = some r → Owned cfg a r ∧ n = nameOf r := by
    intro n r hr
    rcases i1 n r hr with h1 | h1
    · exact key.1 n r h1
    · obtain ⟨m, hm, e⟩ := List.mem_map.1 h1
      cases e
      exact ⟨hm, rfl⟩
  refine ⟨fwd, fun r hr hu => ?_⟩
  have hk : nameOf r ∈ PDict.keys s.reg := by
    rcases key.2 r hr with ⟨m, rfl⟩ | h1
    · exact i2 _ (.inr (List.mem_map.2 ⟨(undot m, .integrand m), List.mem_map.2 ⟨m, hr, rfl⟩, rfl⟩))
    · exact i2 _ (.inl h1)
  cases hg : PDict.get? s.reg (nameOf r) with
  | none => exact absurd hk (PDict.get?_eq_none_iff.1 hg)
  | some r' =>
    obtain ⟨h1, h2⟩ := fwd _ _ hg
    rw [hu r' h1 h2.symm]

/-- A block without particles and one set of parameters, whatever the number of time steps. -/
example : (construct (demo "a" true) { demoArgs 1 with freeRnn := true, freeSteps := 3, objects := [("l1", ["w", "b"])] } ()).map (fun s => s.reg) =
    .ok [("pf_timestep0_l1_w", .free 0 "l1" "w"), ("pf_timestep0_l1_b", .free 0 "l1" "b"), ("nn__w", .integrand "nn.w")] := by rfl

/-- One set of parameters per time step. -/
example : (construct (demo "a" true) { demoArgs 1 with freeTime := true, freeSteps := 2, objects := [("l1", ["w"])] } ()).map (fun s => s.reg) =
    .ok [("pf_timestep0_l1_w", .free 0 "l1" "w"), ("pf_timestep1_l1_w", .free 1 "l1" "w"), ("nn__w", .integrand "nn.w")] := by rfl

/-- C39: a new block has the given states; to each of them belongs one costate, made by the costate initialiser like this state, and
there are no other costates. -/
theorem C39_costates [OfNat T 0] [OfNat T 1] (cfg : Cfg α T Θ R) (a : Args α T) (th : Θ) (s : St α T Θ) (h : construct cfg a th = .ok s) :
    s.state = a.state ∧
      (∀ d, a.state = some d → SDict.Sorted d → ∃ c, s.costate = some c ∧ SDict.Sorted c ∧
        (∀ n, SDict.get? c ("p_" ++ n) = (SDict.get? d n).map a.like) ∧ ∀ k ∈ SDict.keys c, ∃ n ∈ SDict.keys d, k = "p_" ++ n) ∧
      (a.state = none → s.costate = none) := by
  obtain ⟨h1, h2, _⟩ := construct_ok h
  refine ⟨h1, fun d hd hs => ?_, fun hn => by rw [h2, hn]; rfl⟩
  obtain ⟨k1, k2⟩ := costate_fold a.like d [] (by simp [SDict.Sorted]) hs.nodup
  refine ⟨_, by rw [h2, hd]; rfl, k1, fun n => by rw [k2]; simp, fun k hk => ?_⟩
  simpa using (costate_keys a.like d [] k).1 hk

example : construct (demo "a" true) (demoArgs 2) () = .ok (demoBlock 2) ∧
    (demoBlock 2).costate = some [("p_q1", ⟨[1, 1, 2], [2, 2]⟩)] := ⟨by rfl, by rfl⟩

/-- C41: a pass that gets neither data nor pass-through dictionaries, or only one of the pass-through dictionaries of states and
costates, raises a `ValueError` and leaves the block as it was. -/
theorem C41_inputs_rejected [Zero α] (cfg : Cfg α T Θ R) (r : R) (i : Inp α) (s : St α T Θ)
    (h : (i.x = none ∧ i.state = none ∧ i.costate = none) ∨ (i.state = none ∧ i.costate ≠ none) ∨ (i.state ≠ none ∧ i.costate = none)) :
    forward cfg r i s = (s, .error .valueError) := by
  have hc : checkInputs i = .error .valueError := by
    unfold checkInputs
    rcases i with ⟨x, st, cs, d⟩
    cases x <;> cases st <;> cases cs <;> simp_all
  unfold forward
  rw [hc]

/-- C41: data as a tensor and as a dictionary at the same time, or none of them, raises a `ValueError`. -/
theorem C41_data_rejected [Zero α] (cfg : Cfg α T Θ R) (r : R) (i : Inp α) (s : St α T Θ) (h : i.x.isSome = i.data.isSome) :
    ∃ e, (forward cfg r i s).2 = .error e := by
  have hc : chooseData cfg i.x i.data = .error .valueError := by
    unfold chooseData
    rcases i with ⟨x, st, cs, d⟩
    cases x <;> cases d <;> simp_all
  unfold forward
  split
  · exact ⟨_, rfl⟩
  split
  · exact ⟨_, rfl⟩
  rw [hc]
  exact ⟨_, rfl⟩

example : forward (demo "b" true) () { demoPass with costate := none } (demoBlock 2) = (demoBlock 2, .error .valueError) :=
  C41_inputs_rejected _ _ _ _ (.inr (.inr ⟨by simp [demoPass], rfl⟩))

end Verif.Block
