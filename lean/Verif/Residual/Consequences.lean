import Verif.Residual.Network

/-!
# C80: samples and particles of residual networks
-/

namespace Verif.Residual
open Verif Verif.Tensor Verif.Assembly Verif.Whole Verif.Evolution Verif.Flow Verif.Later Verif.ResNet

variable {K K' Kp Kp' P R Θ Rb β : Type}

/-! ## Samples -/

/-- Equations that treat the samples separately. -/
def BySample {n : Nat} (fld : ∀ B, Sys2 (Fin n) (Fin B) K K' → ℝ → Sys2 (Fin n) (Fin B) K K' → Sys2 (Fin n) (Fin B) K K') : Prop :=
  ∀ (B B' : Nat) (g : Fin B' → Fin B) z t x, fld B' (Evolution.select g z) t (Evolution.select g x) = Evolution.select g (fld B z t x)

/-- The steps treat the samples separately, with fixed step sizes. -/
def Steps.Samplewise {n : Nat} {Kp Kp' K K' : Type} : Steps n Kp Kp' K K' → Prop
  | .nil => True
  | @Steps.block _ _ _ _ _ _ _ _ _ _ _ _ _ _ _ _ _ _ _ fld M rest => Fixed M ∧ BySample fld ∧ rest.Samplewise
  | @Steps.relay _ _ _ _ _ _ _ fld M rest => Fixed M ∧ BySample fld ∧ rest.Samplewise
  | .stride _ _ rest => rest.Samplewise

theorem run_select {n : Nat} (st : Steps n Kp Kp' K K') (hs : st.Samplewise) {B B' : Nat} (g : Fin B' → Fin B) (y : Sys2 (Fin n) (Fin B) Kp Kp') :
    st.run (Evolution.select g y) = (st.run y).map (Evolution.select g) := by
  induction st with
  | nil => rfl
  | block ι f f' e e' q p fld M rest ih =>
    obtain ⟨h1, h2, h3⟩ := hs
    unfold Steps.run
    have hb : begin ι f f' e e' q p (Evolution.select g y) = Evolution.select g (begin ι f f' e e' q p y) := rfl
    rw [hb]
    have h := runSys_map (Evolution.select g) (select_combine g) (fun t z => h2 B B' g (begin ι f f' e e' q p y) t z) M (.inl h1) [begin ι f f' e e' q p y]
    rw [List.map_singleton] at h
    rw [h, last_map]
    cases last (runSys (fld B (begin ι f f' e e' q p y)) M [begin ι f f' e e' q p y]) with
    | error e => rfl
    | ok z => exact ih h3 z
  | relay fld M rest ih =>
    obtain ⟨h1, h2, h3⟩ := hs
    unfold Steps.run
    have h := runSys_map (Evolution.select g) (select_combine g) (fun t z => h2 B B' g y t z) M (.inl h1) [y]
    rw [List.map_singleton] at h
    rw [h, last_map]
    cases last (runSys (fld B y) M [y]) with
    | error e => rfl
    | ok z => exact ih h3 z
  | stride σ σ' rest ih => exact ih hs (thin σ y.1, thin σ y.2.1, thin σ' y.2.2)

/-- C80: a class that treats its rows separately has equations that treat the samples separately, without and with RNN mode. -/
theorem C80_rowwise [Fintype K] [Fintype K'] {several : Bool} {c : Cls K K' P R} {cfg : Block.Cfg ℝ ℝ Θ Rb} {s : Block.St ℝ ℝ Θ} {n : Nat}
    {fld : ∀ B, Sys2 (Fin n) (Fin B) K K' → ℝ → Sys2 (Fin n) (Fin B) K K' → Sys2 (Fin n) (Fin B) K K'} {m : Method ℝ ℝ} (h : Solves several c cfg s n fld m) (hrow : Rowwise c.dataRhs) (hm : Fixed m) :
    BySample fld := by
  intro B B' g z t x
  cases h with
  | plain hi hb ha hu he hw r0 => simp only [Evolution.field2, Evolution.select, hrow (Fin B') (Fin B) g]
  | rnn hb ha hu he hn hw =>
    dsimp only
    rw [kept_select c _ hm g z]
    simp only [Evolution.field2, Evolution.select, hrow (Fin B') (Fin B) g]

section
variable [Fintype Kp] [Fintype Kp'] {net : Net ℝ ℝ Θ Rb β} {r : Rb} {c : Cls Kp Kp' P R} {cfg : Block.Cfg ℝ ℝ Θ Rb} {n : Nat} {q p : Fin n × Kp → ℝ}
  {fld : ∀ B, Sys2 (Fin n) (Fin B) Kp Kp' → ℝ → Sys2 (Fin n) (Fin B) Kp Kp' → Sys2 (Fin n) (Fin B) Kp Kp'} {m : Method ℝ ℝ} {st : Steps n Kp Kp' K K'} {nm' : String} {Ln : Lay K} {Ln' : Lay K'}
  {key : String} {sh : List Nat}

theorem computes_select (hm : Fixed m) (hfld : BySample fld) (hst : st.Samplewise) {B B' : Nat} (g : Fin B' → Fin B) (x : Fin B × Kp' → ℝ) :
    computes q p fld m st (Evolution.rows g x) = (computes q p fld m st x).map (Evolution.select g) := by
  unfold computes
  have h := runSys_map (Evolution.select g) (select_combine g) (fun t z => hfld B B' g (q, p, x) t z) m (.inl hm) [(q, p, x)]
  rw [List.map_singleton] at h
  have e : Evolution.select g (q, p, x) = (q, p, Evolution.rows g x) := rfl
  rw [e] at h
  rw [h, last_map]
  cases last (runSys (fld B (q, p, x)) m [(q, p, x)]) with
  | error e => rfl
  | ok z => exact run_select st hst g z

/-- C80: with fixed-step methods what the head of a residual network gets for a sample depends on this sample only, not on the other samples of the batch, on their number or on its place among them.  In both batches the same
exception is raised, or in both the head gets a tensor with the same row for the sample. -/
theorem C80_sample (h : IsNet net r c cfg q p fld m st nm' Ln Ln' key sh) (hm : Fixed m) (hfld : BySample fld) (hst : st.Samplewise) {B B' : Nat} {x0 X x0' X' : Tensor ℝ} {x : Fin B × Kp' → ℝ}
    {x' : Fin B' × Kp' → ℝ} (hstem : net.stem x0 = .ok X) (hX : cfg.initialData X = .ok (enc c.dataLay "" B x)) (hstem' : net.stem x0' = .ok X') (hX' : cfg.initialData X' = .ok (enc c.dataLay "" B' x'))
    (b : Fin B) (b' : Fin B') (hx : ∀ k, x (b, k) = x' (b', k)) :
    (∃ e, (ResNet.forward net r x0).2 = .error e ∧ (ResNet.forward net r x0').2 = .error e) ∨
    ∃ T T', (ResNet.forward net r x0).2 = net.head (.tensor T) ∧ (ResNet.forward net r x0').2 = net.head (.tensor T') ∧ T.shape = B :: sh ∧ T'.shape = B' :: sh ∧
      ∀ idx, T.get? (b.1 :: idx) = T'.get? (b'.1 :: idx) := by
  rw [C80_network h hstem hX, C80_network h hstem' hX']
  have k1 := computes_select (q := q) (p := p) hm hfld hst (fun _ : Fin 1 => b) x
  have k2 := computes_select (q := q) (p := p) hm hfld hst (fun _ : Fin 1 => b') x'
  have e : Evolution.rows (fun _ : Fin 1 => b) x = Evolution.rows (fun _ : Fin 1 => b') x' := funext fun k => hx k.2
  rw [e, k2] at k1
  cases hu : computes q p fld m st x with
  | error er =>
    cases hu' : computes q p fld m st x' with
    | error er' =>
      rw [hu, hu'] at k1
      cases k1
      exact .inl ⟨er, rfl, rfl⟩
    | ok z' => rw [hu, hu'] at k1; cases k1
  | ok z =>
    cases hu' : computes q p fld m st x' with
    | error er' => rw [hu, hu'] at k1; cases k1
    | ok z' =>
      rw [hu, hu'] at k1
      have e3 := congrArg (fun w => w.2.2) (Except.ok.inj k1)
      refine .inr ⟨_, _, rfl, rfl, rfl, rfl, fun idx => ?_⟩
      by_cases hi : Valid sh idx
      · rw [get?_tab (.cons b.2 hi), get?_tab (.cons b'.2 hi)]
        simp only [value, b.2, b'.2, dif_pos]
        cases Ln'.coord key idx with
        | none => rfl
        | some k =>
          have := congrFun e3 (0, k)
          simpa [Evolution.select, Evolution.rows] using this.symm
      · rw [tab_get?_none (fun h => hi (by cases h; assumption)), tab_get?_none (fun h => hi (by cases h; assumption))]

end

/-! ## The order of the particles -/

/-- Equations that follow the order of the particles. -/
def ByParticle {n : Nat} (fld : ∀ B, Sys2 (Fin n) (Fin B) K K' → ℝ → Sys2 (Fin n) (Fin B) K K' → Sys2 (Fin n) (Fin B) K K') : Prop :=
  ∀ (B : Nat) (σ : Equiv.Perm (Fin n)) z t x, fld B (permute σ z) t (permute σ x) = permute σ (fld B z t x)

/-- The same steps with the particles of every block permuted: own states and costates and the values around what is passed. -/
def Steps.permuted {n : Nat} {Kp Kp' K K' : Type} (π : Equiv.Perm (Fin n)) : Steps n Kp Kp' K K' → Steps n Kp Kp' K K'
  | .nil => .nil
  | @Steps.block _ _ _ _ _ _ _ _ _ _ _ _ ι f g e e' q p fld M rest =>
    .block ι (Evolution.rows π f) (Evolution.rows π g) e e' (Evolution.rows π q) (Evolution.rows π p) fld M (rest.permuted π)
  | @Steps.relay _ _ _ _ _ _ _ fld M rest => .relay fld M (rest.permuted π)
  | .stride σ σ' rest => .stride σ σ' (rest.permuted π)

def Steps.Equivariant {n : Nat} {Kp Kp' K K' : Type} : Steps n Kp Kp' K K' → Prop
  | .nil => True
  | @Steps.block _ _ _ _ _ _ _ _ _ _ _ _ _ _ _ _ _ _ _ fld _ rest => ByParticle fld ∧ rest.Equivariant
  | @Steps.relay _ _ _ _ _ _ _ fld _ rest => ByParticle fld ∧ rest.Equivariant
  | .stride _ _ rest => rest.Equivariant

theorem begin_permute {n B : Nat} {Kq Ko Ko' : Type} (ι : Kp → Kq) (f g : Fin n × Kq → ℝ) (e : Kq ⊕ Ko ≃ K) (e' : Kp' ⊕ Ko' ≃ K') (q p : Fin n × Ko → ℝ) (π : Equiv.Perm (Fin n))
    (y : Sys2 (Fin n) (Fin B) Kp Kp') :
    begin ι (Evolution.rows π f) (Evolution.rows π g) e e' (Evolution.rows π q) (Evolution.rows π p) (permute π y) = permute π (begin ι f g e e' q p y) := by
  rfl

theorem run_permute {n : Nat} (st : Steps n Kp Kp' K K') (hs : st.Equivariant) {B : Nat} (π : Equiv.Perm (Fin n)) (y : Sys2 (Fin n) (Fin B) Kp Kp') :
    (st.permuted π).run (permute π y) = (st.run y).map (permute π) := by
  induction st with
  | nil => rfl
  | block ι f f' e e' q p fld M rest ih =>
    obtain ⟨h2, h3⟩ := hs
    unfold Steps.permuted Steps.run
    rw [begin_permute]
    have h := runSys_map (permute π) (permute_combine π) (fun t z => h2 B π (begin ι f f' e e' q p y) t z) M (.inr (permute_sum π)) [begin ι f f' e e' q p y]
    rw [List.map_singleton] at h
    rw [h, last_map]
    cases last (runSys (fld B (begin ι f f' e e' q p y)) M [begin ι f f' e e' q p y]) with
    | error e => rfl
    | ok z => exact ih h3 z
  | relay fld M rest ih =>
    obtain ⟨h2, h3⟩ := hs
    unfold Steps.permuted Steps.run
    have h := runSys_map (permute π) (permute_combine π) (fun t z => h2 B π y t z) M (.inr (permute_sum π)) [y]
    rw [List.map_singleton] at h
    rw [h, last_map]
    cases last (runSys (fld B y) M [y]) with
    | error e => rfl
    | ok z => exact ih h3 z
  | stride σ σ' rest ih => exact ih hs (thin σ y.1, thin σ y.2.1, thin σ' y.2.2)

/-- C80: a class whose parameters do not depend on the order of the particles has equations that follow this order, without and with RNN mode. -/
theorem C80_equivariant [Fintype K] [Fintype K'] {several : Bool} {c : Cls K K' P R} {cfg : Block.Cfg ℝ ℝ Θ Rb} {s : Block.St ℝ ℝ Θ} {n : Nat}
    {fld : ∀ B, Sys2 (Fin n) (Fin B) K K' → ℝ → Sys2 (Fin n) (Fin B) K K' → Sys2 (Fin n) (Fin B) K K'} {m : Method ℝ ℝ} (h : Solves several c cfg s n fld m) (heq : Equi c) : ByParticle fld := by
  intro B σ z t x
  cases h with
  | @plain H D hi M icfg s0 hb ha hu he t' hw r0 =>
    exact (C79_equivariant heq (n := n) (Kn := K) (Kn' := K') (M := M [0, t']) (e := Equiv.sumEmpty K Empty) (e' := Equiv.sumEmpty K' Empty) (fun k => k.2.elim) (fun k => k.2.elim) r0 .nil trivial).1.1 B σ z t x
  | @rnn H D M icfg s0 hb ha hu he hn t' hw =>
    exact (C79_equivariant heq (n := n) (Kn := K) (Kn' := K') (M := M [0, t']) (e := Equiv.sumEmpty K Empty) (e' := Equiv.sumEmpty K' Empty) (fun k => k.2.elim) (fun k => k.2.elim) (s0.2 0).1 .nil trivial).2.1 B σ z t x

section
variable [Fintype Kp] [Fintype Kp'] {net net' : Net ℝ ℝ Θ Rb β} {r r' : Rb} {c : Cls Kp Kp' P R} {cfg : Block.Cfg ℝ ℝ Θ Rb} {n : Nat} {q p : Fin n × Kp → ℝ}
  {fld : ∀ B, Sys2 (Fin n) (Fin B) Kp Kp' → ℝ → Sys2 (Fin n) (Fin B) Kp Kp' → Sys2 (Fin n) (Fin B) Kp Kp'} {m : Method ℝ ℝ} {st : Steps n Kp Kp' K K'} {nm' : String} {Ln : Lay K} {Ln' : Lay K'}
  {key : String} {sh : List Nat}

/-- C80: permuting the particles, their costates and the enlargement values of all blocks in the same way does not change the output of a residual network, for every method, also with adaptive step sizes. -/
theorem C80_order (π : Equiv.Perm (Fin n)) (h : IsNet net r c cfg q p fld m st nm' Ln Ln' key sh) (h' : IsNet net' r' c cfg (Evolution.rows π q) (Evolution.rows π p) fld m (st.permuted π) nm' Ln Ln' key sh)
    (hs : net'.stem = net.stem) (hh : net'.head = net.head) (hfld : ByParticle fld) (hst : st.Equivariant) {B : Nat} {x0 X : Tensor ℝ} {x : Fin B × Kp' → ℝ}
    (hstem : net.stem x0 = .ok X) (hX : cfg.initialData X = .ok (enc c.dataLay "" B x)) :
    (ResNet.forward net' r' x0).2 = (ResNet.forward net r x0).2 := by
  rw [C80_network h hstem hX, C80_network h' (hs ▸ hstem) hX, hh]
  unfold computes
  have hr := runSys_map (permute π) (permute_combine π) (fun t z => hfld B π (q, p, x) t z) m (.inr (permute_sum π)) [(q, p, x)]
  rw [List.map_singleton] at hr
  have e : permute π (q, p, x) = (Evolution.rows π q, Evolution.rows π p, x) := rfl
  rw [e] at hr
  rw [hr, last_map]
  cases last (runSys (fld B (q, p, x)) m [(q, p, x)]) with
  | error e => rfl
  | ok z =>
    show ((st.permuted π).run (permute π z)) >>= _ = (st.run z) >>= _
    rw [run_permute st hst π z]
    cases st.run z <;> rfl

end

/-! ## After a failure -/

/-- C80 (negation): if the integration of a new block fails at its first pass, for instance because of one bad batch, the block can never be used again: its enlargement parameters exist, but it does not count as used, and
every later call raises a ValueError. -/
theorem C80_failed_first {Kq Ko Ko' : Type} [Fintype K] [Fintype K'] {Lp : Lay Kp} {Lq : Lay Kq} {Lo : Lay Ko} {ι : Kp → Kq} (hLp : Lp.Ok) (hLq : Lq.Ok) (hLo : Lo.Ok) (hin : Inside Lp Lq ι) (hsame : SamePixels Lq Lo)
    {cfg : Block.Cfg ℝ ℝ Θ Rb} (he : Creates cfg Lo) {s : Block.St ℝ ℝ Θ} {n : Nat} (hnew : s.notYet = true) (hes : s.enlState = none) (hec : s.enlCostate = none)
    {q p : Fin n × Ko → ℝ} (hq : s.state = some (enc Lo "" n q)) (hp : s.costate = some (enc Lo "p_" n p)) {c : Cls K K' P R}
    {fld : ∀ B, Sys2 (Fin n) (Fin B) K K' → ℝ → Sys2 (Fin n) (Fin B) K K' → Sys2 (Fin n) (Fin B) K K'} {m : Method ℝ ℝ} (h : Solves true c cfg s n fld m)
    {nm : String} {Lp' : Lay Kp'} {Lo' : Lay Ko'} {e : Kq ⊕ Ko ≃ K} {e' : Kp' ⊕ Ko' ≃ K'} {dd : Nat} (hpl : Place c cfg nm Lq Lp' Lo Lo' e e' dd) {sh : List Nat} (hkey : (cfg.outKey, sh) ∈ c.dataLay.names)
    (r : Rb) {B : Nat} (y : Sys2 (Fin n) (Fin B) Kp Kp') (err : Err) (hfail : ∀ f g, last (runSys (fld B (begin ι f g e e' q p y)) m [begin ι f g e e' q p y]) = .error err) :
    ∃ s', Block.forward cfg r (passed nm Lp Lp' y) s = (s', .error err) ∧ ∀ r' S C D, Block.forward cfg r' ⟨none, some S, some C, some D⟩ s' = (s', .error .valueError) := by
  obtain ⟨f, g, s1, h1, h2, h3⟩ := C80_fresh hLp hLq hLo hin hsame cfg he hnew hes hec q p hq hp r nm
  refine ⟨{ s1 with dataDim := dd }, ?_, fun r' S C D => ?_⟩
  · rw [C80_block h hpl hq hp h1.now y hkey, hfail]
    rfl
  · obtain ⟨a, es, h4, _⟩ := (h2 dd).state
    have h4 : s1.enlState = some [(a, es)] := h4
    unfold Block.forward Block.passThrough Block.getOrCreate Block.enlExists
    simp only [Block.checkInputs, he.on, h3, h4, if_true, Option.isSome_some, Bool.true_or]
    rfl

end Verif.Residual
