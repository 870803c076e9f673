import Verif.Hooks.Norms
import Verif.Complexity.Props
import Verif.Energy.Props

/-!
# C65: what the recording hook records

All histories of calls and of writes to memory, all dictionaries of states and parameters, all tensors.
-/

namespace Verif.Hooks
open Verif

/-! ## One call -/

/-- What a call has to record under a key (`none`: nothing). -/
noncomputable def value (sv : Svd) (h : Heap) (c : Call) : Key → Option Rec
  | .time => some (.num c.t)
  | .energy => some (.num (0.5 * ((flat c.params).map fun x => (h x.2.2.addr).sumSq).sum))
  | .param k p => (entry c.params k p).map fun r => .arr (store h r)
  | .var b w s => (entry (c.group w) b s).map fun r => .arr (store h r)
  | .norm n k p => if p = "bias" then none else (entry c.params k p).map fun r => .num (normValue sv n (h r.addr))
  | .total n => some (.num (((flat c.params).filter fun x => x.2.1 ≠ "bias").map fun x => normValue sv n (h x.2.2.addr)).sum)

/-- Keys that are recorded after the norms have been computed. -/
def Key.late : Key → Bool
  | .norm .. => true
  | .total _ => true
  | _ => false

theorem valuesOf_group (h : Heap) (c : Call) (hc : c.Good) (b s : String) (w w' : Which) :
    valuesOf (.var b w s) (groupEntries h c w') = if w' = w then (value (fun _ _ _ => []) h c (.var b w s)).toList else [] := by
  split
  · next hw =>
    subst hw
    exact valuesOf_map_flat (hc.distinct.2 w') (fun a b => Key.var a w' b) (fun a b a' b' => by simp) (fun r => Rec.arr (store h r)) b s
  · next hw =>
    refine valuesOf_nil_of _ _ fun e he => ?_
    unfold groupEntries at he
    rw [List.mem_map] at he
    obtain ⟨x, _, rfl⟩ := he
    intro e
    injection e with _ e _
    exact hw e

theorem valuesOf_group_other (h : Heap) (c : Call) (κ : Key) (w : Which) (hκ : ∀ b w s, κ ≠ .var b w s) : valuesOf κ (groupEntries h c w) = [] := by
  refine valuesOf_nil_of _ _ fun e he => ?_
  unfold groupEntries at he
  rw [List.mem_map] at he
  obtain ⟨x, _, rfl⟩ := he
  exact (hκ _ _ _).symm

theorem valuesOf_first (sv : Svd) (h : Heap) (c : Call) (hc : c.Good) (κ : Key) :
    valuesOf κ (firstEntries h c) = if κ.late then [] else (value sv h c κ).toList := by
  unfold firstEntries
  simp only [valuesOf_append]
  have hpar : ∀ κ : Key, (∀ k p, κ ≠ .param k p) → valuesOf κ ((flat c.params).map fun x => (Key.param x.1 x.2.1, Rec.arr (store h x.2.2))) = [] := by
    intro κ hκ
    refine valuesOf_nil_of _ _ fun e he => ?_
    rw [List.mem_map] at he
    obtain ⟨x, _, rfl⟩ := he
    exact (hκ _ _).symm
  cases κ with
  | time =>
    simp only [valuesOf_group_other h c .time _ (fun _ _ _ => by simp), hpar .time (fun _ _ => by simp)]
    simp [valuesOf, Key.late, value]
  | energy =>
    simp only [valuesOf_group_other h c .energy _ (fun _ _ _ => by simp), hpar .energy (fun _ _ => by simp)]
    simp [valuesOf, Key.late, value]
  | param k p =>
    simp only [valuesOf_group_other h c (.param k p) _ (fun _ _ _ => by simp)]
    rw [valuesOf_map_flat hc.distinct.1 (fun a b => Key.param a b) (fun a b a' b' => by simp) (fun r => Rec.arr (store h r)) k p]
    simp [valuesOf, Key.late, value]
  | var b w s =>
    simp only [valuesOf_group h c hc, hpar (.var b w s) (fun _ _ => by simp)]
    cases w <;> simp [valuesOf, Key.late, value]
  | norm n k p =>
    simp only [valuesOf_group_other h c (.norm n k p) _ (fun _ _ _ => by simp), hpar (.norm n k p) (fun _ _ => by simp)]
    simp [valuesOf, Key.late]
  | total n =>
    simp only [valuesOf_group_other h c (.total n) _ (fun _ _ _ => by simp), hpar (.total n) (fun _ _ => by simp)]
    simp [valuesOf, Key.late]

theorem valuesOf_triple (sv : Svd) (h : Heap) (n : Kind) (k p : String) (x : String × String × Ref) :
    valuesOf (.norm n k p) (triple sv h x) = if x.1 = k ∧ x.2.1 = p then [normValue sv n (h x.2.2.addr)] else [] := by
  unfold triple valuesOf
  by_cases hx : x.1 = k ∧ x.2.1 = p
  · rw [if_pos hx, hx.1, hx.2]
    cases n <;> simp
  · rw [if_neg hx]
    have : ∀ n', ¬ (Key.norm n' x.1 x.2.1 = Key.norm n k p) := by
      intro n' e
      injection e with _ e1 e2
      exact hx ⟨e1, e2⟩
    simp [this]

theorem valuesOf_norms (sv : Svd) (h : Heap) (c : Call) (hc : c.Good) (κ : Key) :
    valuesOf κ ((normEntries sv h (flat c.params)).map fun e => (e.1, Rec.num e.2)) = if κ.late then (value sv h c κ).toList else [] := by
  have hmap : ∀ l : List (Key × ℝ), valuesOf κ (l.map fun e => (e.1, Rec.num e.2)) = (valuesOf κ l).map Rec.num := by
    intro l
    unfold valuesOf
    rw [List.filter_map, List.map_map, List.map_map]
    rfl
  rw [hmap]
  unfold normEntries
  rw [valuesOf_append]
  have htri : ∀ (l : List (String × String × Ref)), (∀ n k p, κ ≠ .norm n k p) → valuesOf κ (l.flatMap (triple sv h)) = [] := by
    intro l hκ
    refine valuesOf_nil_of _ _ fun e he => ?_
    rw [List.mem_flatMap] at he
    obtain ⟨x, _, he⟩ := he
    simp only [triple, List.mem_cons, List.not_mem_nil, or_false] at he
    rcases he with rfl | rfl | rfl <;> exact (hκ _ _ _).symm
  cases κ with
  | time => rw [htri _ fun _ _ _ => by simp]; simp [valuesOf, Key.late]
  | energy => rw [htri _ fun _ _ _ => by simp]; simp [valuesOf, Key.late]
  | param k p => rw [htri _ fun _ _ _ => by simp]; simp [valuesOf, Key.late]
  | var b w s => rw [htri _ fun _ _ _ => by simp]; simp [valuesOf, Key.late]
  | total n =>
    rw [htri _ fun _ _ _ => by simp]
    cases n <;> simp [valuesOf, Key.late, value, totalValue, notBias]
  | norm n k p =>
    have h1 : valuesOf (.norm n k p) ((notBias (flat c.params)).flatMap (triple sv h)) =
        ((notBias (flat c.params)).filter fun x => decide (x.1 = k ∧ x.2.1 = p)).map fun x => normValue sv n (h x.2.2.addr) := by
      induction notBias (flat c.params) with
      | nil => rfl
      | cons x l ih =>
        rw [List.flatMap_cons, valuesOf_append, ih, valuesOf_triple]
        by_cases hx : x.1 = k ∧ x.2.1 = p <;> simp [hx]
    rw [h1]
    have h2 := congrArg (List.map fun r : Ref => normValue sv n (h r.addr)) (filter_flat hc.distinct.1 k p)
    rw [List.map_map] at h2
    unfold notBias
    rw [List.filter_filter]
    by_cases hp : p = "bias"
    · have : (flat c.params).filter (fun a => decide (a.1 = k ∧ a.2.1 = p) && decide (a.2.1 ≠ "bias")) = [] := by
        rw [List.filter_eq_nil_iff]
        intro x _ hx
        simp only [Bool.and_eq_true, decide_eq_true_eq] at hx
        exact hx.2 (hx.1.2.trans hp)
      rw [this]
      simp [valuesOf, Key.late, value, hp]
    · have : (flat c.params).filter (fun a => decide (a.1 = k ∧ a.2.1 = p) && decide (a.2.1 ≠ "bias")) =
          (flat c.params).filter fun a => decide (a.1 = k ∧ a.2.1 = p) := by
        refine List.filter_congr fun x _ => ?_
        by_cases hx : x.1 = k ∧ x.2.1 = p
        · simp [hx, hp]
        · simp [hx]
      rw [this]
      simp only [Function.comp_def] at h2
      rw [h2]
      cases he : entry c.params k p <;> simp [valuesOf, Key.late, value, hp, he]

theorem plain_first (h : Heap) (c : Call) (hc : c.Good) : ∀ e ∈ firstEntries h c, e.1.Plain := by
  have hg : ∀ w, ∀ e ∈ groupEntries h c w, e.1.Plain := by
    intro w e he
    unfold groupEntries at he
    rw [List.mem_map] at he
    obtain ⟨x, hx, rfl⟩ := he
    exact hc.vars w x hx
  intro e he
  unfold firstEntries at he
  simp only [List.mem_append, List.mem_cons, List.not_mem_nil, or_false, List.mem_map] at he
  rcases he with ((rfl | ⟨x, hx, rfl⟩) | rfl) | he | he | he | he | he | he
  · trivial
  · exact hc.params x hx
  · trivial
  all_goals exact hg _ e he

/-- **C65.** A call succeeds and appends to every record exactly the value of its own quantity, and nothing else. -/
theorem C65_call (sv : Svd) (h : Heap) (c : Call) (d : Custom) (hd : d.isDefaultdict = true) (hl : d.makesList = true) (hc : c.Good)
    (hn : ∀ x ∈ flat c.params, x.2.1 ≠ "bias" → HasNorms sv (h x.2.2.addr)) :
    ∃ log, hook sv h c d = (.ok (), { d with log := log }) ∧
      ∀ κ : Key, κ.Plain → recorded log κ.text = recorded d.log κ.text ++ (value sv h c κ).toList := by
  refine ⟨_, hook_run sv h c d hd hl hc fun x hx => ?_, fun κ hκ => ?_⟩
  · unfold notBias at hx
    rw [List.mem_filter] at hx
    exact hn x hx.1 (of_decide_eq_true hx.2)
  · rw [recorded_appendAll, filter_texts κ hκ]
    · unfold entries
      rw [valuesOf_append, valuesOf_first sv h c hc, valuesOf_norms sv h c hc]
      cases κ.late <;> simp
    · intro e he
      unfold entries at he
      rw [List.mem_append, List.mem_map] at he
      rcases he with he | ⟨x, hx, rfl⟩
      · exact plain_first h c hc e he
      · exact plain_normEntries sv h _ hc.params x hx

/-- **C65.** Different quantities have different names. -/
theorem C65_names (κ κ' : Key) (h : κ.Plain) (h' : κ'.Plain) : κ.text = κ'.text ↔ κ = κ' := ⟨text_inj h h', fun e => e ▸ rfl⟩

/-- Without the condition on the names two quantities may share a record. -/
theorem C65_dots_collide : (Key.param "a.state" "q1").text = (Key.var "a" .state "q1").text ∧
    (Key.param "sqr_nuclear_norm_l1" "weight").text = (Key.norm .nuclear "l1" "weight").text := by decide

/-! ## Histories -/

/-- The calls of a history with the memory at their time. -/
noncomputable def callsOf : List Event → Heap → List (Heap × Call)
  | [], _ => []
  | .write a t :: l, h => callsOf l (Function.update h a t)
  | .call c :: l, h => (h, c) :: callsOf l h

/-- A call that can be recorded. -/
def Recordable (sv : Svd) (x : Heap × Call) : Prop := x.2.Good ∧ ∀ y ∈ flat x.2.params, y.2.1 ≠ "bias" → HasNorms sv (x.1 y.2.2.addr)

/-- **C65.** For every history of calls and writes: under each name the values of all calls in their order. -/
theorem C65_history (sv : Svd) (l : List Event) (h : Heap) (d : Custom) (hd : d.isDefaultdict = true) (hl : d.makesList = true)
    (hg : ∀ x ∈ callsOf l h, Recordable sv x) :
    (history sv l h d).2.2 = .ok () ∧
    ∀ κ : Key, κ.Plain → recorded (history sv l h d).2.1.log κ.text = recorded d.log κ.text ++ (callsOf l h).filterMap fun x => value sv x.1 x.2 κ := by
  induction l generalizing h d with
  | nil => simp [history, callsOf]
  | cons e l ih =>
    cases e with
    | write a t => exact ih _ d hd hl hg
    | call c =>
      obtain ⟨log, e1, e2⟩ := C65_call sv h c d hd hl (hg (h, c) (by simp [callsOf])).1 (hg (h, c) (by simp [callsOf])).2
      have ih' := ih h { d with log := log } hd hl fun x hx => hg x (by simp [callsOf, hx])
      have e3 : history sv (.call c :: l) h d = history sv l h { d with log := log } := by
        rw [history, e1]
      rw [e3]
      refine ⟨ih'.1, fun κ hκ => ?_⟩
      rw [ih'.2 κ hκ]
      change recorded log κ.text ++ _ = _
      rw [e2 κ hκ, callsOf, List.append_assoc, List.filterMap_cons]
      cases value sv h c κ <;> rfl

/-- **C65.** Quantities that every call has are recorded in step: the i-th entries of all these records belong to the i-th call. -/
theorem C65_aligned (sv : Svd) (l : List Event) (h : Heap) (hg : ∀ x ∈ callsOf l h, Recordable sv x) (κ : Key) (hκ : κ.Plain)
    (f : Heap × Call → Rec) (hf : ∀ x ∈ callsOf l h, value sv x.1 x.2 κ = some (f x)) :
    recorded (history sv l h ⟨true, true, []⟩).2.1.log κ.text = (callsOf l h).map f := by
  rw [(C65_history sv l h ⟨true, true, []⟩ rfl rfl hg).2 κ hκ]
  have : ∀ L : List (Heap × Call), (∀ x ∈ L, value sv x.1 x.2 κ = some (f x)) → L.filterMap (fun x => value sv x.1 x.2 κ) = L.map f := by
    intro L hL
    induction L with
    | nil => rfl
    | cons x L ih =>
      rw [List.filterMap_cons, hL x (by simp), List.map_cons, ih fun y hy => hL y (by simp [hy])]
  rw [this _ hf]
  rfl

/-- The numbers in a record. -/
def nums (l : List Rec) : List ℝ := l.filterMap fun r => match r with | .num x => some x | .arr _ => none

/-- The total of a norm over the parameters of a call. -/
noncomputable def total (sv : Svd) (n : Kind) (x : Heap × Call) : ℝ :=
  (((flat x.2.params).filter fun y => y.2.1 ≠ "bias").map fun y => normValue sv n (x.1 y.2.2.addr)).sum

/-- **C65** together with C55: the complexity measures of a recorded history are those of the sequence of (time, total norm) of the calls. -/
theorem C65_complexity (sv : Svd) (l : List Event) (h : Heap) (hg : ∀ x ∈ callsOf l h, Recordable sv x)
    (hpos : ∀ n, ∀ x ∈ callsOf l h, 0 < total sv n x) :
    let log := (history sv l h ⟨true, true, []⟩).2.1.log
    let r := fun n => (callsOf l h).map fun x => (x.2.t, total sv n x)
    Complexity.measures ⟨nums (recorded log "t"), nums (recorded log "sum_sqr_frobenius_norm"), nums (recorded log "sum_sqr_nuclear_norm"),
      nums (recorded log "sum_sqr_spectral_norm")⟩ =
      .ok (some (Complexity.spec (r .frobenius)), some (Complexity.spec (r .nuclear)), some (Complexity.spec (r .spectral))) := by
  intro log r
  have hm : ∀ f : Heap × Call → ℝ, nums ((callsOf l h).map fun x => Rec.num (f x)) = (callsOf l h).map f := by
    intro f
    unfold nums
    rw [List.filterMap_map]
    exact (List.filterMap_eq_map (f := f)) ▸ rfl
  have ht : nums (recorded log "t") = (callsOf l h).map fun x => x.2.t :=
    (congrArg nums (C65_aligned sv l h hg .time trivial (fun x => .num x.2.t) fun _ _ => rfl)).trans (hm _)
  have hn : ∀ n : Kind, nums (recorded log (Key.total n).text) = (callsOf l h).map fun x => total sv n x := fun n =>
    (congrArg nums (C65_aligned sv l h hg (.total n) trivial (fun x => .num (total sv n x)) fun _ _ => rfl)).trans (hm _)
  have h1 : nums (recorded log "sum_sqr_frobenius_norm") = (r .frobenius).map Prod.snd := by
    rw [show (r .frobenius).map Prod.snd = (callsOf l h).map fun x => total sv .frobenius x by simp [r], ← hn]; rfl
  have h2 : nums (recorded log "sum_sqr_nuclear_norm") = (r .nuclear).map Prod.snd := by
    rw [show (r .nuclear).map Prod.snd = (callsOf l h).map fun x => total sv .nuclear x by simp [r], ← hn]; rfl
  have h3 : nums (recorded log "sum_sqr_spectral_norm") = (r .spectral).map Prod.snd := by
    rw [show (r .spectral).map Prod.snd = (callsOf l h).map fun x => total sv .spectral x by simp [r], ← hn]; rfl
  have hp : ∀ n, ∀ x ∈ r n, 0 < x.2 := by
    intro n x hx
    simp only [r, List.mem_map] at hx
    obtain ⟨y, hy, rfl⟩ := hx
    exact hpos n y hy
  have hr : ∀ n, (r n).map Prod.fst = (callsOf l h).map fun x => x.2.t := fun n => by simp [r]
  rw [h1, h2, h3, ht]
  exact Complexity.C55_all_three (r .frobenius) (r .nuclear) (r .spectral) (hp _) (hp _) (hp _) _ (hr _) (hr _) (hr _)

/-! ## When the recorded arrays are looked at later -/

theorem heap_kept (sv : Svd) (l : List Event) (h : Heap) (d : Custom) (a : ℕ) (hw : ∀ t, Event.write a t ∉ l) : (history sv l h d).1 a = h a := by
  induction l generalizing h d with
  | nil => rfl
  | cons e l ih =>
    have hw' : ∀ t, Event.write a t ∉ l := fun t hm => hw t (List.mem_cons_of_mem _ hm)
    cases e with
    | write b t =>
      have hab : a ≠ b := by
        rintro rfl
        exact hw t (by simp)
      rw [history, ih _ d hw', Function.update_of_ne hab]
    | call c =>
      rw [history]
      split
      · rfl
      · exact ih h _ hw'

/-- **C65**, partial (the full property would need copies instead of shared memory, see `C65_shared`).  A recorded array shows the value of its call as long as the tensor is not overwritten afterwards, or if it was not on the CPU. -/
theorem C65_values_kept_partial (sv : Svd) (h : Heap) (r : Ref) (after : List Event) (d : Custom)
    (hw : r.onCpu = false ∨ ∀ t, Event.write r.addr t ∉ after) : (store h r).read (history sv after h d).1 = h r.addr := by
  unfold store
  rcases hw with hw | hw
  · simp [hw, Stored.read]
  · split
    · exact heap_kept sv after h d r.addr hw
    · rfl

/-- Tensors on the CPU are recorded by reference: overwriting the tensor later (an optimizer step on externally managed parameters) rewrites the
recorded past. -/
theorem C65_shared (sv : Svd) (h : Heap) (r : Ref) (hr : r.onCpu = true) (t : Tensor) (d : Custom) :
    (store h r).read (history sv [.write r.addr t] h d).1 = t := by
  unfold store
  rw [if_pos hr]
  exact Function.update_self _ _ _

/-! ## Errors -/

/-- **C65.** Anything but a `defaultdict` is rejected before something is recorded. -/
theorem C65_not_defaultdict (sv : Svd) (h : Heap) (c : Call) (d : Custom) (hd : d.isDefaultdict = false) : hook sv h c d = (.error .valueError, d) := by
  unfold hook
  rw [bind_run (get : Run Custom) _ d d d rfl]
  simp only [hd, Bool.not_false, if_true]
  exact bind_run_error _ _ d d .valueError rfl

/-- A `defaultdict` with another default is accepted by the check, but nothing can be recorded. -/
theorem C65_other_default (sv : Svd) (h : Heap) (c : Call) (d : Custom) (hd : d.isDefaultdict = true) (hl : d.makesList = false)
    (ht : d.log.get? "t" = none) : hook sv h c d = (.error .attributeError, d) := by
  unfold hook
  rw [bind_run (get : Run Custom) _ d d d rfl]
  simp only [hd, Bool.not_true, Bool.false_eq_true, if_false]
  exact bind_run_error _ _ d d _ (by unfold emit; simp [ht, hl])

theorem energy_run_error (h : Heap) (l : List (String × String × Ref)) (e : ℝ) (c : Custom) (hc : c.makesList = true) (hl : ∃ x ∈ l, x.2.2.onCpu = false) :
    ∃ c', l.foldlM (fun e x => energyStep h x.1 e x.2) e c = (.error .runtimeError, c') := by
  induction l generalizing e c with
  | nil => obtain ⟨_, hx, _⟩ := hl; cases hx
  | cons x l ih =>
    rw [List.foldlM_cons]
    cases hx : x.2.2.onCpu with
    | false =>
      refine ⟨{ c with log := appendLog c.log (x.1 ++ "." ++ x.2.1, Rec.arr (store h x.2.2)) }, bind_run_error _ _ c _ _ ?_⟩
      unfold energyStep
      rw [bind_run _ _ c _ () (emit_run _ _ c hc), hx]
      rfl
    | true =>
      have h1 : energyStep h x.1 e x.2 c = (.ok (e + 0.5 * (h x.2.2.addr).sumSq), { c with log := appendLog c.log (x.1 ++ "." ++ x.2.1, Rec.arr (store h x.2.2)) }) := by
        unfold energyStep
        rw [bind_run _ _ c _ () (emit_run _ _ c hc), if_pos hx]
        rfl
      obtain ⟨y, hy, hy'⟩ := hl
      have hy2 : y ∈ l := by
        rcases List.mem_cons.1 hy with rfl | hy
        · rw [hx] at hy'; cases hy'
        · exact hy
      rw [bind_run _ _ c _ _ h1]
      exact ih _ _ (by exact hc) ⟨y, hy2, hy'⟩

/-- With a parameter that is not on the CPU the hook always raises (the energy is accumulated on the CPU). -/
theorem C65_gpu_raises (sv : Svd) (h : Heap) (c : Call) (d : Custom) (hd : d.isDefaultdict = true) (hl : d.makesList = true)
    (hg : ∃ x ∈ flat c.params, x.2.2.onCpu = false) : (hook sv h c d).1 = .error .runtimeError := by
  unfold hook
  rw [bind_run (get : Run Custom) _ d d d rfl]
  simp only [hd, Bool.not_true, Bool.false_eq_true, if_false]
  rw [bind_run _ _ d _ () (emit_run _ _ d hl), foldlM_flat]
  obtain ⟨c', hc'⟩ := energy_run_error h (flat c.params) 0 { d with log := appendLog d.log ("t", .num c.t) } hl hg
  rw [bind_run_error _ _ _ c' .runtimeError hc']

/-- With a parameter that is not a matrix (convolutions, normalisations) the hook raises after everything but the norms has been recorded: from
then on the records of norms are shorter than the record of times. -/
theorem C65_not_matrix (sv : Svd) (h : Heap) (c : Call) (d : Custom) (hd : d.isDefaultdict = true) (hl : d.makesList = true) (hc : c.Good)
    (hn : ∃ x ∈ flat c.params, x.2.1 ≠ "bias" ∧ ¬ HasNorms sv (h x.2.2.addr)) :
    ∃ e log, hook sv h c d = (.error e, { d with log := log }) ∧
      ∀ κ : Key, κ.Plain → recorded log κ.text = recorded d.log κ.text ++ if κ.late then [] else (value sv h c κ).toList := by
  obtain ⟨x, hx, hx1, hx2⟩ := hn
  obtain ⟨e, he⟩ := computeNorms_error sv h c.params ⟨x, by unfold notBias; rw [List.mem_filter]; exact ⟨hx, decide_eq_true hx1⟩, hx2⟩
  refine ⟨e, (texts (firstEntries h c)).foldl appendLog d.log, ?_, fun κ hκ => ?_⟩
  · rw [first_run sv h c d hd hl hc.cpu]
    exact bind_run_error _ _ _ _ e (by unfold lift; rw [he])
  · rw [recorded_appendAll, filter_texts κ hκ _ (plain_first h c hc), valuesOf_first sv h c hc]

/-! ## Norms and energy -/

/-- **C65.** For a matrix with the given singular values: the three recorded squared norms are the sum of squares of the entries, the squared sum of
the singular values, and the largest squared stretch of a vector of length one; and they are ordered. -/
theorem C65_norms (sv : Svd) {m n : ℕ} (a : Fin m → Fin n → ℝ) (hr : 0 < (sv m n a).length)
    (hs : SingularValues a fun i : Fin (sv m n a).length => (sv m n a)[i]) :
    normValue sv .frobenius (.matrix m n a) = ∑ i, ∑ j, a i j ^ 2 ∧
    normValue sv .frobenius (.matrix m n a) = ∑ i : Fin (sv m n a).length, (sv m n a)[i] ^ 2 ∧
    normValue sv .nuclear (.matrix m n a) = (∑ i : Fin (sv m n a).length, (sv m n a)[i]) ^ 2 ∧
    (∀ x : Fin n → ℝ, ∑ i, (∑ j, a i j * x j) ^ 2 ≤ normValue sv .spectral (.matrix m n a) * ∑ j, x j ^ 2) ∧
    (∃ x : Fin n → ℝ, ∑ j, x j ^ 2 = 1 ∧ ∑ i, (∑ j, a i j * x j) ^ 2 = normValue sv .spectral (.matrix m n a)) ∧
    normValue sv .spectral (.matrix m n a) ≤ normValue sv .frobenius (.matrix m n a) ∧
    normValue sv .frobenius (.matrix m n a) ≤ normValue sv .nuclear (.matrix m n a) := by
  have e1 : normValue sv .frobenius (.matrix m n a) = ∑ i : Fin (sv m n a).length, (sv m n a)[i] ^ 2 := hs.sum_sq
  have e2 : normValue sv .nuclear (.matrix m n a) = (∑ i : Fin (sv m n a).length, (sv m n a)[i]) ^ 2 := by
    simp only [normValue]
    congr 1
    exact (Fin.sum_univ_getElem (sv m n a)).symm
  have e3 : normValue sv .spectral (.matrix m n a) = (sv m n a)[(⟨0, hr⟩ : Fin (sv m n a).length)] ^ 2 := by
    simp only [normValue]
    congr 1
    generalize hl : sv m n a = l at hr
    cases l with
    | nil => simp at hr
    | cons x l => simp
  refine ⟨rfl, e1, e2, ?_, ?_, ?_, ?_⟩
  · rw [e3]; exact (hs.stretch hr).1
  · rw [e3]; exact (hs.stretch hr).2
  · rw [e1, e3]
    exact Finset.single_le_sum (f := fun i : Fin (sv m n a).length => (sv m n a)[i] ^ 2) (fun _ _ => sq_nonneg _) (Finset.mem_univ (⟨0, hr⟩ : Fin (sv m n a).length))
  · rw [e1, e2]
    exact sum_sq_le_sq_sum _ hs.nonneg

/-- The elements of a tensor. -/
noncomputable def Tensor.elems : Tensor → List ℝ
  | .matrix m n a => (List.finRange m).flatMap fun i => (List.finRange n).map fun j => a i j
  | .other xs => xs

theorem Tensor.sum_elems (t : Tensor) : (t.elems.map (· ^ 2)).sum = t.sumSq := by
  cases t with
  | other xs => rfl
  | matrix m n a =>
    simp only [elems, sumSq, List.map_flatMap, List.map_map]
    rw [← List.sum_ofFn, List.ofFn_eq_map]
    induction List.finRange m with
    | nil => rfl
    | cons i l ih =>
      rw [List.flatMap_cons, List.sum_append, ih, List.map_cons, List.sum_cons, ← List.sum_ofFn (f := fun j => a i j ^ 2), List.ofFn_eq_map]
      rfl

/-- The parameter objects of a call with their dictionaries of weights. -/
noncomputable def objects (h : Heap) (params : Dict2) (weights : String → SDict String (Option ℝ)) : SDict String (Energy.Obj ℝ) :=
  params.map fun o => (o.1, ⟨o.2.map fun p => (p.1, (h p.2.addr).elems), weights o.1⟩)

theorem penalty_one (w : SDict String (Option ℝ)) (k : String) (xs : List ℝ) (hw : ∀ x, SDict.get? w k = some (some x) → x = 1) :
    Energy.penalty w k xs = (xs.map (· ^ 2)).sum := by
  unfold Energy.penalty
  split
  · rfl
  · rfl
  · next x hx => rw [hw x hx, one_mul]

/-- **C65**, partial (other weights: `C65_energy_ignores_weights`).  If no weight differs from one, the recorded energy is the norm penalty of the model; it is half of the total of the squared Frobenius norms plus the
biases. -/
theorem C65_energy_partial (sv : Svd) (h : Heap) (c : Call) (weights : String → SDict String (Option ℝ))
    (hw : ∀ k p x, SDict.get? (weights k) p = some (some x) → x = 1) :
    value sv h c .energy = some (.num (Energy.kineticEnergy (objects h c.params weights))) ∧
    Energy.kineticEnergy (objects h c.params weights) =
      0.5 * (total sv .frobenius (h, c) + (((flat c.params).filter fun y => y.2.1 = "bias").map fun y => (h y.2.2.addr).sumSq).sum) := by
  have inner : ∀ (w : SDict String (Option ℝ)) (l : SDict String Ref) (e : ℝ), (∀ p x, SDict.get? w p = some (some x) → x = 1) →
      (l.map fun p => (p.1, (h p.2.addr).elems)).foldl (fun e p => e + Energy.penalty w p.1 p.2) e = e + (l.map fun p => (h p.2.addr).sumSq).sum := by
    intro w l e hw
    induction l generalizing e with
    | nil => simp
    | cons p l ih =>
      simp only [List.map_cons, List.foldl_cons, List.sum_cons]
      rw [ih, penalty_one w p.1 _ (hw p.1), Tensor.sum_elems, add_assoc]
  have outer : ∀ (l : Dict2) (e : ℝ), (objects h l weights).foldl (fun e o => o.2.pars.foldl (fun e p => e + Energy.penalty o.2.weights p.1 p.2) e) e =
      e + ((flat l).map fun x => (h x.2.2.addr).sumSq).sum := by
    intro l
    induction l with
    | nil => intro e; simp [objects, flat]
    | cons o l ih =>
      intro e
      have e1 : objects h (o :: l) weights = (o.1, ⟨o.2.map fun p => (p.1, (h p.2.addr).elems), weights o.1⟩) :: objects h l weights := rfl
      rw [e1, List.foldl_cons, ih, flat_cons, List.map_append, List.sum_append, List.map_map]
      simp only
      rw [inner _ _ _ (hw o.1), add_assoc]
      rfl
  have e1 : Energy.kineticEnergy (objects h c.params weights) = 0.5 * ((flat c.params).map fun x => (h x.2.2.addr).sumSq).sum := by
    unfold Energy.kineticEnergy
    rw [outer, zero_add]
    norm_num
  refine ⟨by rw [e1]; rfl, ?_⟩
  rw [e1]
  congr 1
  unfold total
  induction flat c.params with
  | nil => simp
  | cons x l ih =>
    by_cases hx : x.2.1 = "bias"
    · simp [hx] at ih ⊢; rw [ih]; ring
    · simp only [List.map_cons, List.sum_cons, ih]
      have e2 : (x :: l).filter (fun y => decide (y.2.1 ≠ "bias")) = x :: l.filter fun y => decide (y.2.1 ≠ "bias") := by simp [hx]
      have e3 : (x :: l).filter (fun y => decide (y.2.1 = "bias")) = l.filter fun y => decide (y.2.1 = "bias") := by simp [hx]
      rw [e2, e3, List.map_cons, List.sum_cons, add_assoc]
      rfl

/-- With another weight the recorded energy is not the norm penalty: weight 2, one parameter with value 1. -/
theorem C65_energy_ignores_weights (sv : Svd) : ∃ (h : Heap) (c : Call) (weights : String → SDict String (Option ℝ)) (e : ℝ),
    value sv h c .energy = some (.num e) ∧ Energy.kineticEnergy (objects h c.params weights) = 2 * e ∧ e ≠ 0 := by
  refine ⟨fun _ => .matrix 1 1 fun _ _ => 1, ⟨0, [], [], [], [], [], [], [("l1", [("weight", ⟨0, true⟩)])]⟩, fun _ => [("weight", some 2)], 0.5, ?_, ?_, ?_⟩
  · simp [value, flat, Tensor.sumSq]
  · norm_num [Energy.kineticEnergy, objects, Energy.penalty, SDict.get?, Tensor.elems, List.finRange]
  · norm_num

/-! ## The hypotheses can be met -/

/-- One layer, one block. -/
def sampleCall : Call where
  t := 0
  state := [("simple", [("q1", ⟨2, true⟩), ("q2", ⟨3, true⟩)])]
  costate := [("simple", [("p_q1", ⟨4, true⟩), ("p_q2", ⟨5, true⟩)])]
  data := [("simple", [("q1", ⟨6, true⟩)])]
  dotState := [("simple", [("dot_q1", ⟨7, true⟩)])]
  dotCostate := [("simple", [("dot_p_q1", ⟨8, true⟩)])]
  dotData := [("simple", [("dot_q1", ⟨9, true⟩)])]
  params := [("l1", [("bias", ⟨0, true⟩), ("weight", ⟨1, true⟩)])]

theorem sampleCall_good : sampleCall.Good where
  distinct := ⟨by unfold Distinct; decide, fun w => by cases w <;> (unfold Distinct; decide)⟩
  params := by
    intro x hx
    simp [sampleCall, flat] at hx
    rcases hx with rfl | rfl <;> (unfold Key.Plain NoDot; decide)
  vars := by
    intro w x hx
    cases w <;> simp [sampleCall, flat, Call.group] at hx
    all_goals (rcases hx with rfl | rfl <;> (unfold Key.Plain NoDot; decide))
  cpu := by
    intro x hx
    simp [sampleCall, flat] at hx
    rcases hx with rfl | rfl <;> rfl

/-- A memory in which the weight is a 1×1 matrix. -/
def sampleHeap : Heap := fun a => if a = 1 then .matrix 1 1 fun _ _ => 3 else .other [1]

/-- Absolute values of 1×1 matrices, enough for the example. -/
noncomputable def sampleSvd : Svd := fun m n a => match m, n, a with
  | 1, 1, a => [|a 0 0|]
  | _, _, _ => []

example : ∃ log, hook sampleSvd sampleHeap sampleCall ⟨true, true, []⟩ = (.ok (), ⟨true, true, log⟩) ∧
    ∀ κ : Key, κ.Plain → recorded log κ.text = (value sampleSvd sampleHeap sampleCall κ).toList := by
  obtain ⟨log, e1, e2⟩ := C65_call sampleSvd sampleHeap sampleCall ⟨true, true, []⟩ rfl rfl sampleCall_good (by
    intro x hx hb
    simp [sampleCall, flat] at hx
    rcases hx with rfl | rfl
    · exact absurd rfl hb
    · simp [HasNorms, sampleHeap, sampleSvd])
  exact ⟨log, e1, fun κ hκ => by rw [e2 κ hκ]; rfl⟩

example : SingularValues (fun _ _ => 3 : Fin 1 → Fin 1 → ℝ) (fun _ : Fin 1 => 3) where
  nonneg _ := by norm_num
  decreasing _ _ _ := le_refl _
  factors := ⟨fun _ _ => 1, fun _ _ => 1, fun i j => by simp [Subsingleton.elim i j], fun i j => by simp [Subsingleton.elim i j], fun _ _ => by simp⟩

end Verif.Hooks
