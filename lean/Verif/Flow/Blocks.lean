import Verif.Flow.Lemmas
import Verif.Block.Lemmas

/-!
# Blocks that integrate dictionaries
-/

namespace Verif.Flow
open Verif Verif.Assembly

variable {α T σ : Type}

/-! ## The program without vectors (specification) -/

section
variable {Θ R : Type}

/-- The dictionaries a forward pass integrates (or an exception), and the block afterwards: checks, enlargement, choice of the data, merging with the own
parameters, zero padding. -/
def prepare [Zero α] (cfg : Block.Cfg α T Θ R) (r : R) (i : Block.Inp α) (s : Block.St α T Θ) : Block.St α T Θ × Py (Trip α) :=
  match Block.checkInputs i with
  | .error e => (s, .error e)
  | .ok _ =>
    match Block.passThrough cfg r i.state i.costate s with
    | (s, .error e) => (s, .error e)
    | (s, .ok (ps, pc)) =>
      match Block.chooseData cfg i.x i.data with
      | .error e => (s, .error e)
      | .ok (data, pad) =>
        match Dicts.merge s.state ps cfg.name, Dicts.merge s.costate pc cfg.name with
        | .error e, _ => (s, .error e)
        | .ok _, .error e => (s, .error e)
        | .ok st, .ok cs =>
          match Block.padData cfg data pad s with
          | (s, .error e) => (s, .error e)
          | (s, .ok d) => (s, .ok (st, cs, d))

/-- The integrated dictionaries: at the end of the time interval, or stacked for a vector of times. -/
def evolve [Add α] [Zero α] [OfNat T 0] (M : List T → Method α T) (F : T → Trip α → σ → Py (Trip α × σ)) (s0 : σ) (w : Block.When T) (x : Trip α) :
    Py (Trip α) := do
  let (ys, _) ← runDict (layoutOf x) F (M w.times) [x] s0
  match w with
  | .upTo _ => match ys.getLast? with
    | none => .error .indexError
    | some y => .ok y
  | .vector _ => .ok (stack3 (layoutOf x) ys)

/-- A forward pass on dictionaries.  State, costate and data must each have at least one tensor. -/
def direct [Add α] [Zero α] [OfNat T 0] (M : List T → Method α T) (F : Θ → Nat → T → Trip α → σ → Py (Trip α × σ)) (s0 : σ) (w : Block.When T)
    (cfg : Block.Cfg α T Θ R) (r : R) (i : Block.Inp α) (s : Block.St α T Θ) : Block.St α T Θ × Py (Block.Out α) :=
  match prepare cfg r i s with
  | (s, .error e) => (s, .error e)
  | (s, .ok x) =>
    if (full x).1 = [] ∨ (full x).2.1 = [] ∨ (full x).2.2 = [] then (s, .error .typeError)
    else
      match (do Block.finish cfg s.dataDim (← evolve M (F s.theta s.dataDim) s0 w (full x)) : Py (Block.Out α)) with
      | .error e => (s, .error e)
      | .ok o => ({ s with notYet := false }, .ok o)

end

/-! ## Lemmas -/

theorem stack_block {δ : Type} (pl : Plan) (ds : List δ) (row : δ → List α) (i : Nat) (ℓ : δ → String → List α)
    (hl : ∀ d ∈ ds, ∀ e ∈ decDict (readVec (row d)) pl i, ℓ d e.1 = e.2.data) :
    decDict (readStack (ds.map row)) pl i = pl.map fun k => (k.1, ⟨ds.length :: k.2, ds.flatMap fun d => ℓ d k.1⟩) := by
  induction pl generalizing i with
  | nil => rfl
  | cons k pl ih =>
    simp only [decDict, List.map_cons]
    rw [ih (i + vol k.2) fun d hd e he => hl d hd e (by simp only [decDict]; exact List.mem_cons_of_mem _ he)]
    congr 2
    unfold readStack
    rw [List.length_map, List.map_map]
    congr 1
    rw [List.flatMap_def]
    congr 1
    apply List.map_congr_left
    intro d hd
    exact (hl d hd (k.1, readVec (row d) k.2 i) (by simp only [decDict]; exact List.mem_cons_self ..)).symm

theorem stack_blocks {δ : Type} (p : Plans) (ds : List δ) (row : δ → List α) (i : Nat) (ℓ : δ → String → String → List α)
    (hl : ∀ d ∈ ds, ∀ b ∈ decDicts (readVec (row d)) p i, ∀ e ∈ b.2, ℓ d b.1 e.1 = e.2.data) :
    decDicts (readStack (ds.map row)) p i =
      p.map fun b => (b.1, b.2.map fun k => (k.1, ⟨ds.length :: k.2, ds.flatMap fun d => ℓ d b.1 k.1⟩)) := by
  induction p generalizing i with
  | nil => rfl
  | cons b p ih =>
    simp only [decDicts, List.map_cons]
    rw [ih (i + plen b.2) fun d hd b' hb' => hl d hd b' (by simp only [decDicts]; exact List.mem_cons_of_mem _ hb')]
    congr 2
    exact stack_block b.2 ds row i (fun d => ℓ d b.1)
      (fun d hd e he => hl d hd (b.1, decDict (readVec (row d)) b.2 i) (by simp only [decDicts]; exact List.mem_cons_self ..) e he)

theorem tensorData_eq {d : TDicts α} (hd : GoodDicts d) {b : String × TDict α} (hb : b ∈ d) {e : String × Tensor α} (he : e ∈ b.2) :
    tensorData d b.1 e.1 = e.2.data := by
  unfold tensorData
  rw [(SDict.get?_eq_some_iff hd.1).2 hb]
  simp only [Option.bind_some]
  rw [(SDict.get?_eq_some_iff (hd.2 b hb).1).2 he]
  rfl

theorem dec_vec {p : AllPlans} (hp : FullPlans p) {x : Trip α} (h : HasLayout p x) :
    decDicts (readVec (vec x)) p.state 0 = x.1 ∧ decDicts (readVec (vec x)) p.costate (planLength p.state) = x.2.1 ∧
      decDicts (readVec (vec x)) p.data (planLength p.state + planLength p.costate) = x.2.2 := by
  have := disassemble_layout hp h
  rw [disassembleTensor_vec _ _ hp.1, if_pos (by rw [vec_length h])] at this
  have := Except.ok.inj this
  exact ⟨congrArg Prod.fst this, congrArg (fun t => t.2.1) this, congrArg (fun t => t.2.2) this⟩

theorem disassemble_stack {p : AllPlans} (hp : FullPlans p) (ys : List (Trip α)) (h : ∀ y ∈ ys, HasLayout p y) :
    disassembleTensor (.stack (totalLength p) (ys.map vec)) (some p) 1 = .ok (stack3 p ys) := by
  rw [disassembleTensor_stack _ _ (by
    intro r hr
    obtain ⟨y, hy, rfl⟩ := List.mem_map.1 hr
    exact vec_length (h y hy)) _ hp.1, if_pos (.inl (Nat.le_refl _))]
  congr 1
  unfold stack3
  have aux : ∀ (q : Plans) (i : Nat) (f : Trip α → TDicts α), (∀ y ∈ ys, decDicts (readVec (vec y)) q i = f y ∧ GoodDicts (f y)) →
      decDicts (readStack (ys.map vec)) q i = stack q (ys.map f) := by
    intro q i f hf
    rw [stack_blocks q ys vec i (fun y => tensorData (f y)) (by
      intro y hy b hb e he
      rw [(hf y hy).1] at hb
      exact tensorData_eq (hf y hy).2 hb he)]
    unfold stack
    simp only [List.length_map, List.flatMap_map]
  rw [aux p.state 0 (fun x => x.1) (fun y hy => ⟨(dec_vec hp (h y hy)).1, (h y hy).1.1⟩),
    aux p.costate _ (fun x => x.2.1) (fun y hy => ⟨(dec_vec hp (h y hy)).2.1, (h y hy).2.1.1⟩),
    aux p.data _ (fun x => x.2.2) (fun y hy => ⟨(dec_vec hp (h y hy)).2.2, (h y hy).2.2.1⟩)]

theorem shapesOf_good {d : TDicts α} (h : GoodDicts d) : GoodPlans (shapesOf d) := by
  constructor
  · have := h.1
    unfold SDict.Sorted SDict.keys at this ⊢
    unfold shapesOf
    rw [List.map_map]
    exact this
  · intro b hb
    obtain ⟨b', hb', rfl⟩ := List.mem_map.1 hb
    obtain ⟨h1, h2⟩ := h.2 b' hb'
    constructor
    · unfold SDict.Sorted SDict.keys at h1 ⊢
      rw [List.map_map]
      exact h1
    · intro e he
      obtain ⟨k, hk, rfl⟩ := List.mem_map.1 he
      exact (h2 k hk).2

theorem dropEmpty_good {d : TDicts α} (h : GoodDicts d) : GoodDicts (dropEmptyBlocks d) := by
  refine ⟨?_, fun b hb => h.2 b (List.mem_of_mem_filter hb)⟩
  have h1 := h.1
  unfold SDict.Sorted SDict.keys at h1 ⊢
  exact h1.sublist (List.Sublist.map _ List.filter_sublist)

theorem full_layout {x : Trip α} (h : GoodDicts x.1 ∧ GoodDicts x.2.1 ∧ GoodDicts x.2.2)
    (hn : ¬ ((full x).1 = [] ∨ (full x).2.1 = [] ∨ (full x).2.2 = [])) :
    FullPlans (layoutOf (full x)) ∧ HasLayout (layoutOf (full x)) (full x) := by
  have g1 := dropEmpty_good h.1
  have g2 := dropEmpty_good h.2.1
  have g3 := dropEmpty_good h.2.2
  have ne : ∀ d : TDicts α, ∀ b ∈ shapesOf (dropEmptyBlocks d), b.2 ≠ [] := by
    intro d b hb
    obtain ⟨b', hb', rfl⟩ := List.mem_map.1 hb
    have := (List.mem_filter.1 hb').2
    simpa using this
  refine ⟨⟨⟨shapesOf_good g1, shapesOf_good g2, shapesOf_good g3⟩, ?_, ?_⟩, ⟨g1, rfl⟩, ⟨g2, rfl⟩, ⟨g3, rfl⟩⟩
  · simp only [not_or] at hn
    unfold layoutOf shapesOf
    simpa using hn
  · intro b hb
    rw [List.mem_append, List.mem_append] at hb
    rcases hb with (hb | hb) | hb
    · exact ne _ b hb
    · exact ne _ b hb
    · exact ne _ b hb

theorem vec_full (x : Trip α) : vec (full x) = vec x := by
  unfold vec full
  simp only [elements_dropEmpty]

variable {Θ R : Type}

/-- The integration inside a block. -/
theorem integrate_evolve [AddMonoid α] [OfNat T 0] (M : List T → Method α T) (F : Θ → Nat → T → Trip α → σ → Py (Trip α × σ)) (s0 : σ)
    (cfg : Block.Cfg α T Θ R) (hc : cfg.solve = solveWith M F s0) (s : Block.St α T Θ) (w : Block.When T) (hw : Block.Is s w) (x : Trip α)
    (hp : FullPlans (layoutOf x)) (hx : HasLayout (layoutOf x) x) (hF : KeepsLayout (layoutOf x) (F s.theta s.dataDim)) :
    Block.integrate cfg (vec x) (layoutOf x) s = evolve M (F s.theta s.dataDim) s0 w x := by
  have hsolve : ∀ ts, cfg.solve s.theta s.dataDim (layoutOf x) (vec x) ts =
      (runDict (layoutOf x) (F s.theta s.dataDim) (M ts) [x] s0).map fun r => some (r.1.map vec) := by
    intro ts
    rw [hc]
    unfold solveWith
    rw [vec_length hx]
    have := (run_eq hp hF (M ts) [x] (by simpa using hx) s0).1
    rw [List.map_singleton] at this
    rw [this]
    cases runDict (layoutOf x) (F s.theta s.dataDim) (M ts) [x] s0 <;> rfl
  have hlay := fun ts => (run_eq hp hF (M ts) [x] (by simpa using hx) s0).2
  cases w with
  | upTo t =>
    unfold Block.integrate evolve
    rw [hw.1, hw.2]
    dsimp only
    rw [hsolve]
    show _ = (runDict (layoutOf x) (F s.theta s.dataDim) (M [0, t]) [x] s0) >>= _
    cases hr : runDict (layoutOf x) (F s.theta s.dataDim) (M [0, t]) [x] s0 with
    | error e => rfl
    | ok r =>
      simp only [Except.map, bind, Except.bind]
      rw [List.getLast?_map]
      cases hl : r.1.getLast? with
      | none => rfl
      | some y =>
        simp only [Option.map_some]
        exact disassemble_layout hp (hlay _ r hr y (List.mem_of_getLast? hl))
  | vector v =>
    unfold Block.integrate evolve
    rw [hw.2]
    dsimp only
    rw [hsolve]
    show _ = (runDict (layoutOf x) (F s.theta s.dataDim) (M v) [x] s0) >>= _
    cases hr : runDict (layoutOf x) (F s.theta s.dataDim) (M v) [x] s0 with
    | error e => rfl
    | ok r =>
      simp only [Except.map, bind, Except.bind]
      rw [vec_length hx]
      exact disassemble_stack hp r.1 (hlay _ r hr)

/-- `forward` in two parts. -/
theorem forward_prepare [Zero α] (cfg : Block.Cfg α T Θ R) (r : R) (i : Block.Inp α) (s : Block.St α T Θ) :
    Block.forward cfg r i s =
      match prepare cfg r i s with
      | (s, .error e) => (s, .error e)
      | (s, .ok x) =>
        match assembleTensor x.1 x.2.1 x.2.2 with
        | .error e => (s, .error e)
        | .ok v =>
          match (do Block.finish cfg s.dataDim (← Block.integrate cfg v.1 v.2 s) : Py (Block.Out α)) with
          | .error e => (s, .error e)
          | .ok o => ({ s with notYet := false }, .ok o) := by
  unfold Block.forward prepare
  cases Block.checkInputs i with
  | error e => rfl
  | ok u =>
    dsimp only
    rcases Block.passThrough cfg r i.state i.costate s with ⟨s1, e | ⟨ps, pc⟩⟩
    · rfl
    dsimp only
    rcases Block.chooseData cfg i.x i.data with e | ⟨data, pad⟩
    · rfl
    dsimp only
    unfold Block.initial
    cases Dicts.merge s1.state ps cfg.name with
    | error e => rfl
    | ok st =>
      cases Dicts.merge s1.costate pc cfg.name with
      | error e => rfl
      | ok cs =>
        dsimp only
        rcases Block.padData cfg data pad s1 with ⟨s2, e | d⟩
        · rfl
        dsimp only
        cases assembleTensor st cs d <;> rfl

theorem prepare_same [Zero α] (cfg : Block.Cfg α T Θ R) (r : R) (i : Block.Inp α) (s : Block.St α T Θ) : Block.Same s (prepare cfg r i s).1 := by
  unfold prepare
  cases Block.checkInputs i with
  | error e => exact .refl s
  | ok u =>
    dsimp only
    have h1 := (Block.passThrough_same cfg r i.state i.costate s).1
    rcases hpt : Block.passThrough cfg r i.state i.costate s with ⟨s1, e | ⟨ps, pc⟩⟩
    · rw [hpt] at h1; exact h1
    rw [hpt] at h1
    dsimp only at h1 ⊢
    rcases Block.chooseData cfg i.x i.data with e | ⟨data, pad⟩
    · exact h1
    dsimp only
    cases hm : Dicts.merge s1.state ps cfg.name with
    | error e => exact h1
    | ok st =>
      cases hm2 : Dicts.merge s1.costate pc cfg.name with
      | error e => exact h1
      | ok cs =>
        dsimp only
        have h2 := (Block.initial_same cfg data ps pc pad s1).1
        unfold Block.initial at h2
        rw [hm, hm2] at h2
        dsimp only at h2
        rcases hp : Block.padData cfg data pad s1 with ⟨s2, e | d⟩
        · rw [hp] at h2; exact h1.trans h2
        · rw [hp] at h2; exact h1.trans h2

end Verif.Flow
