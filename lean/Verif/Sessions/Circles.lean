import Verif.Sessions.Props
import Verif.Hooks.Lemmas
import Verif.Options.Model

/-!
# C97: the recording of `cc.py`
-/

set_option linter.unusedSectionVars false

namespace Verif.Sessions
open Verif Verif.Integrand Verif.TimeParams
open Verif.Hooks (Heap Call Custom Rec Run Event Ref Dict2 Tensor Stored recorded appendLog recorded_append entry)

/-- A number or a tensor. -/
inductive Content where
  | num (x : ℝ)
  | tensor (t : Tensor)

/-- What a record contains when it is looked at. -/
def content (h : Heap) : Rec → Content
  | .num x => .num x
  | .arr s => .tensor (s.read h)

/-- The six quantities recorded of an evaluation: the time, the particles of the block `simple`, and weights and biases of the two layers. -/
def quantity (h : Heap) (c : Call) : String → Option Content
  | "t" => some (.num c.t)
  | "q1" => (entry c.state "simple" "q1").map fun r => .tensor (h r.addr)
  | "l1_weight" => (entry c.params "l1" "weight").map fun r => .tensor (h r.addr)
  | "l1_bias" => (entry c.params "l1" "bias").map fun r => .tensor (h r.addr)
  | "l2_weight" => (entry c.params "l2" "weight").map fun r => .tensor (h r.addr)
  | "l2_bias" => (entry c.params "l2" "bias").map fun r => .tensor (h r.addr)
  | _ => none

/-- Their names. -/
def quantities : List String := ["t", "q1", "l1_weight", "l1_bias", "l2_weight", "l2_bias"]

/-- The evaluation has all of them. -/
def Complete (c : Call) : Prop :=
  (entry c.state "simple" "q1").isSome ∧ (entry c.params "l1" "weight").isSome ∧ (entry c.params "l1" "bias").isSome ∧
    (entry c.params "l2" "weight").isSome ∧ (entry c.params "l2" "bias").isSome

/-- The evaluations in a history, each with the memory at its time. -/
def seenBy : List Event → Heap → List (Heap × Call)
  | [], _ => []
  | .write a t :: l, h => seenBy l (Function.update h a t)
  | .call x :: l, h => (h, x) :: seenBy l h

/-- The records with a value under each of the six names. -/
noncomputable def values (h : Heap) (c : Call) : List (String × Rec) :=
  [("t", .num c.t)] ++ ((entry c.state "simple" "q1").map fun r => ("q1", Rec.arr (.copy (h r.addr)))).toList ++
    ((entry c.params "l1" "weight").map fun r => ("l1_weight", Rec.arr (.copy (h r.addr)))).toList ++
    ((entry c.params "l1" "bias").map fun r => ("l1_bias", Rec.arr (.copy (h r.addr)))).toList ++
    ((entry c.params "l2" "weight").map fun r => ("l2_weight", Rec.arr (.copy (h r.addr)))).toList ++
    ((entry c.params "l2" "bias").map fun r => ("l2_bias", Rec.arr (.copy (h r.addr)))).toList

theorem push_ok (k : String) (x : Rec) (c : Custom) (hd : c.isDefaultdict = true) (hl : c.makesList = true) :
    push k (.ok x) c = (.ok (), { c with log := appendLog c.log (k, x) }) := by
  unfold push appendLog recorded
  cases c.log.get? k with
  | none => simp [hd, hl]
  | some l => rfl

theorem lookup2_some {d : Dict2} {a b : String} {r : Ref} (h : entry d a b = some r) : lookup2 d a b = .ok r := by
  unfold entry at h
  unfold lookup2
  cases ha : SDict.get? d a with
  | none => rw [ha] at h; cases h
  | some x =>
    rw [ha] at h
    change SDict.get? x b = some r at h
    dsimp only
    rw [h]

theorem lookup2_none {d : Dict2} {a b : String} (h : entry d a b = none) : lookup2 d a b = .error .keyError := by
  unfold entry at h
  unfold lookup2
  cases ha : SDict.get? d a with
  | none => rfl
  | some x =>
    rw [ha] at h
    change SDict.get? x b = none at h
    dsimp only
    rw [h]

theorem bind_ok {m : Run Unit} {f : Unit → Run Unit} {c c' : Custom} (h : m c = (.ok (), c')) : (m >>= f) c = f () c' := by
  show (ExceptT.bind m f) c = _
  unfold ExceptT.bind ExceptT.mk
  show (do let x ← (m : StateM Custom _); ExceptT.bindCont f x : StateM Custom _) c = _
  simp only [bind, StateT.bind]
  rw [h]
  rfl

theorem bind_error {m : Run Unit} {f : Unit → Run Unit} {c c' : Custom} {e : Err} (h : m c = (.error e, c')) : (m >>= f) c = (.error e, c') := by
  show (ExceptT.bind m f) c = _
  unfold ExceptT.bind ExceptT.mk
  show (do let x ← (m : StateM Custom _); ExceptT.bindCont f x : StateM Custom _) c = _
  simp only [bind, StateT.bind]
  rw [h]
  rfl

theorem clone_ok (h : Heap) (r : Ref) : clone h (.ok r) = .ok (.arr (.copy (h r.addr))) := rfl

theorem ccHook_ok (h : Heap) (c : Call) (hc : Complete c) (d : Custom) (hd : d.isDefaultdict = true) (hl : d.makesList = true) :
    ccHook h c d = (.ok (), { d with log := (values h c).foldl appendLog d.log }) := by
  obtain ⟨h1, h2, h3, h4, h5⟩ := hc
  obtain ⟨r1, e1⟩ := Option.isSome_iff_exists.1 h1
  obtain ⟨r2, e2⟩ := Option.isSome_iff_exists.1 h2
  obtain ⟨r3, e3⟩ := Option.isSome_iff_exists.1 h3
  obtain ⟨r4, e4⟩ := Option.isSome_iff_exists.1 h4
  obtain ⟨r5, e5⟩ := Option.isSome_iff_exists.1 h5
  unfold ccHook
  rw [lookup2_some e1, lookup2_some e2, lookup2_some e3, lookup2_some e4, lookup2_some e5]
  simp only [clone_ok]
  rw [bind_ok (push_ok _ _ d hd hl)]
  rw [bind_ok (push_ok _ _ _ (by exact hd) (by exact hl))]
  rw [bind_ok (push_ok _ _ _ (by exact hd) (by exact hl))]
  rw [bind_ok (push_ok _ _ _ (by exact hd) (by exact hl))]
  rw [bind_ok (push_ok _ _ _ (by exact hd) (by exact hl))]
  refine (push_ok _ _ _ (by exact hd) (by exact hl)).trans ?_
  simp [values, e1, e2, e3, e4, e5]

theorem fail_bind (h : Heap) (k : String) (f : Unit → Run Unit) (c : Custom) (hd : c.isDefaultdict = true) (hl : c.makesList = true) :
    ((push k (clone h (.error .keyError)) >>= f) c).1 = .error .keyError := by
  have : ∃ c', push k (clone h (.error .keyError)) c = (.error .keyError, c') := by
    show ∃ c', push k (.error .keyError) c = (.error .keyError, c')
    unfold push
    cases c.log.get? k with
    | none => simp [hd, hl]
    | some l => exact ⟨_, rfl⟩
  obtain ⟨c', hc'⟩ := this
  rw [bind_error hc']

/-- If something is missing, the hook raises `KeyError`. -/
theorem ccHook_error (h : Heap) (c : Call) (hc : ¬ Complete c) (d : Custom) (hd : d.isDefaultdict = true) (hl : d.makesList = true) :
    (ccHook h c d).1 = .error .keyError := by
  unfold ccHook
  rw [bind_ok (push_ok _ _ d hd hl)]
  cases e1 : entry c.state "simple" "q1" with
  | none =>
    rw [lookup2_none e1]
    exact fail_bind h _ _ _ hd hl
  | some r1 =>
  rw [lookup2_some e1, clone_ok, bind_ok (push_ok _ _ _ (by exact hd) (by exact hl))]
  cases e2 : entry c.params "l1" "weight" with
  | none =>
    rw [lookup2_none e2]
    exact fail_bind h _ _ _ hd hl
  | some r2 =>
  rw [lookup2_some e2, clone_ok, bind_ok (push_ok _ _ _ (by exact hd) (by exact hl))]
  cases e3 : entry c.params "l1" "bias" with
  | none =>
    rw [lookup2_none e3]
    exact fail_bind h _ _ _ hd hl
  | some r3 =>
  rw [lookup2_some e3, clone_ok, bind_ok (push_ok _ _ _ (by exact hd) (by exact hl))]
  cases e4 : entry c.params "l2" "weight" with
  | none =>
    rw [lookup2_none e4]
    exact fail_bind h _ _ _ hd hl
  | some r4 =>
  rw [lookup2_some e4, clone_ok, bind_ok (push_ok _ _ _ (by exact hd) (by exact hl))]
  cases e5 : entry c.params "l2" "bias" with
  | none =>
    rw [lookup2_none e5, ← bind_pure (push "l2_bias" _)]
    exact fail_bind h _ _ _ hd hl
  | some r5 => exact absurd ⟨by simp [e1], by simp [e2], by simp [e3], by simp [e4], by simp [e5]⟩ hc

/-- The values appended under a name. -/
theorem recorded_values (h : Heap) (c : Call) (hc : Complete c) (log : PDict String (List Rec)) (k : String) (hk : k ∈ quantities) (h' : Heap) :
    ∃ v, quantity h c k = some v ∧ (recorded ((values h c).foldl appendLog log) k).map (content h') = (recorded log k).map (content h') ++ [v] := by
  obtain ⟨h1, h2, h3, h4, h5⟩ := hc
  obtain ⟨r1, e1⟩ := Option.isSome_iff_exists.1 h1
  obtain ⟨r2, e2⟩ := Option.isSome_iff_exists.1 h2
  obtain ⟨r3, e3⟩ := Option.isSome_iff_exists.1 h3
  obtain ⟨r4, e4⟩ := Option.isSome_iff_exists.1 h4
  obtain ⟨r5, e5⟩ := Option.isSome_iff_exists.1 h5
  simp only [values, e1, e2, e3, e4, e5, Option.map_some, Option.toList_some, List.cons_append, List.nil_append, List.foldl_cons, List.foldl_nil, recorded_append]
  simp only [quantities, List.mem_cons, List.not_mem_nil, or_false] at hk
  rcases hk with rfl | rfl | rfl | rfl | rfl | rfl <;>
    simp [quantity, e1, e2, e3, e4, e5, content, Stored.read]

/-- C97: the recording of `cc.py`: if every evaluation has the block `simple` and the two layers, each of the six lists gets exactly one value per evaluation, in order, and the values stay those
of the time of the evaluation whatever happens to the tensors afterwards. -/
theorem C97_cc_records (l : List Event) (h : Heap) (hc : ∀ x ∈ seenBy l h, Complete x.2) (k : String) (hk : k ∈ quantities) :
    (ccHistory l h ⟨true, true, []⟩).2.2 = .ok () ∧
    ((recorded (ccHistory l h ⟨true, true, []⟩).2.1.log k).map (content (ccHistory l h ⟨true, true, []⟩).1)).map some = (seenBy l h).map fun x => quantity x.1 x.2 k := by
  have key : ∀ (l : List Event) (h : Heap) (d : Custom), d.isDefaultdict = true → d.makesList = true → (∀ x ∈ seenBy l h, Complete x.2) →
      (ccHistory l h d).2.2 = .ok () ∧ ∀ h' : Heap, ((recorded (ccHistory l h d).2.1.log k).map (content h')).map some =
        ((recorded d.log k).map (content h')).map some ++ (seenBy l h).map fun x => quantity x.1 x.2 k := by
    intro l
    induction l with
    | nil => intro h d _ _ _; exact ⟨rfl, fun h' => (List.append_nil _).symm⟩
    | cons ev l ih =>
      intro h d hd hl hc
      cases ev with
      | write a t => exact ih (Function.update h a t) d hd hl hc
      | call x =>
        have hx : Complete x := hc (h, x) (List.mem_cons_self ..)
        have e : ccHistory (.call x :: l) h d = ccHistory l h { d with log := (values h x).foldl appendLog d.log } := by
          rw [ccHistory, ccHook_ok h x hx d hd hl]
        rw [e]
        obtain ⟨i1, i2⟩ := ih h { d with log := (values h x).foldl appendLog d.log } hd hl (fun y hy => hc y (List.mem_cons_of_mem _ hy))
        refine ⟨i1, fun h' => ?_⟩
        obtain ⟨v, hv, hr⟩ := recorded_values h x hx d.log k hk h'
        rw [i2 h']
        dsimp only
        rw [hr, seenBy, List.map_cons, hv, List.map_append, List.append_assoc]
        rfl
  obtain ⟨a, b⟩ := key l h ⟨true, true, []⟩ rfl rfl hc
  exact ⟨a, (b _).trans rfl⟩

/-- An evaluation of the up-down class at time `t`: particles at address 0, layers at the addresses 1 to 4. -/
noncomputable def upDownCall (t : ℝ) : Call where
  t := t
  state := [("simple", [("q1", ⟨0, true⟩)])]
  costate := []
  data := []
  dotState := []
  dotCostate := []
  dotData := []
  params := [("l1", [("bias", ⟨1, true⟩), ("weight", ⟨2, true⟩)]), ("l2", [("bias", ⟨3, true⟩), ("weight", ⟨4, true⟩)])]

/-- Two evaluations with a change of the bias between them and after them: the recording has both values. -/
example (h : Heap) (a b : Tensor) :
    ((recorded (ccHistory [.call (upDownCall 0), .write 1 a, .call (upDownCall 1), .write 1 b] h ⟨true, true, []⟩).2.1.log "l1_bias").map
      (content (ccHistory [.call (upDownCall 0), .write 1 a, .call (upDownCall 1), .write 1 b] h ⟨true, true, []⟩).1)).map some = [some (.tensor (h 1)), some (.tensor a)] := by
  rw [(C97_cc_records _ h (by simp [seenBy, Complete, upDownCall, entry, SDict.get?]) "l1_bias" (by decide)).2]
  simp [seenBy, quantity, upDownCall, entry, SDict.get?]

/-- C97: whenever something is missing, the hook raises `KeyError`, whatever was recorded before. -/
theorem C97_cc_missing (h : Heap) (c : Call) (d : Custom) (hd : d.isDefaultdict = true) (hl : d.makesList = true) :
    (ccHook h c d).1 = .error .keyError ↔ ¬ Complete c := by
  constructor
  · intro he hc
    rw [ccHook_ok h c hc d hd hl] at he
    cases he
  · exact fun hc => ccHook_error h c hc d hd hl

/-- The parameter objects of an evaluation are those of a class. -/
def OfClass (cls : String) (c : Call) : Prop :=
  ∀ a b, (entry c.params a b).isSome ↔ ∃ p ∈ layersOf cls, p.1 = a ∧ b ∈ p.2

theorem complete_iff {cls : String} {c : Call} (hc : OfClass cls c) : Complete c ↔ (entry c.state "simple" "q1").isSome ∧
    ∀ a ∈ ["l1", "l2"], ∀ b ∈ ["weight", "bias"], ∃ p ∈ layersOf cls, p.1 = a ∧ b ∈ p.2 := by
  unfold Complete
  rw [hc, hc, hc, hc]
  simp only [List.mem_cons, List.not_mem_nil, or_false, forall_eq_or_imp, forall_eq, and_assoc]

theorem choose_mem {chain : List (Cli.Str × Cli.Str)} {model cls : Cli.Str} (h : Options.choose chain model = .ok cls) : (model, cls) ∈ chain := by
  unfold Options.choose at h
  cases hg : PDict.get? chain model with
  | none => rw [hg] at h; cases h
  | some name =>
    rw [hg] at h
    dsimp only at h
    unfold Options.classNamed at h
    split at h
    · cases h
      exact PDict.mem_of_get?_eq_some hg
    · cases h

/-- C97: of the models `cc.py` can be started with, the hook works with all but `simple`, and never with that one. -/
theorem C97_cc_models (model : String) (cls : String) (hm : Options.circlesModel model.toList = .ok cls.toList) (h : Heap) (c : Call) (hc : OfClass cls c)
    (hq : (entry c.state "simple" "q1").isSome) (d : Custom) (hd : d.isDefaultdict = true) (hl : d.makesList = true) :
    (ccHook h c d).1 = if model = "simple" then .error .keyError else .ok () := by
  have hcases : (model = "updown" ∧ cls = "AutoShootingIntegrandModelUpDown") ∨ (model = "updown_universal" ∧ cls = "AutoShootingIntegrandModelUpDownUniversal") ∨
      (model = "periodic" ∧ cls = "AutoShootingIntegrandModelUpdownPeriodic") ∨ (model = "simple" ∧ cls = "AutoShootingIntegrandModelSimple") := by
    have hinj : ∀ (a b : String), a.toList = b.toList → a = b := fun a b hab => String.toList_inj.1 hab
    have hmem := choose_mem hm
    rw [List.mem_cons, List.mem_cons, List.mem_cons, List.mem_singleton, Prod.mk.injEq, Prod.mk.injEq, Prod.mk.injEq, Prod.mk.injEq] at hmem
    rcases hmem with ⟨h1, h2⟩ | ⟨h1, h2⟩ | ⟨h1, h2⟩ | ⟨h1, h2⟩
    · exact .inl ⟨hinj _ _ h1, hinj _ _ h2⟩
    · exact .inr (.inl ⟨hinj _ _ h1, hinj _ _ h2⟩)
    · exact .inr (.inr (.inl ⟨hinj _ _ h1, hinj _ _ h2⟩))
    · exact .inr (.inr (.inr ⟨hinj _ _ h1, hinj _ _ h2⟩))
  rcases hcases with ⟨rfl, rfl⟩ | ⟨rfl, rfl⟩ | ⟨rfl, rfl⟩ | ⟨rfl, rfl⟩
  · rw [ccHook_ok h c ((complete_iff hc).2 ⟨hq, by decide⟩) d hd hl]
    rfl
  · rw [ccHook_ok h c ((complete_iff hc).2 ⟨hq, by decide⟩) d hd hl]
    rfl
  · rw [ccHook_ok h c ((complete_iff hc).2 ⟨hq, by decide⟩) d hd hl]
    rfl
  · rw [ccHook_error h c (fun hx => absurd ((complete_iff hc).1 hx).2 (by decide)) d hd hl]
    rfl

theorem entry_pair {d : Dict2} {a b : String} : (entry d a b).isSome ↔ ∃ x, SDict.get? d a = some x ∧ (SDict.get? x b).isSome := by
  unfold entry
  cases SDict.get? d a <;> simp

/-- The parameter objects of `upDownCall` are those of the class. -/
theorem upDownCall_class (t : ℝ) : OfClass "AutoShootingIntegrandModelUpDown" (upDownCall t) := by
  intro a b
  have hl : layersOf "AutoShootingIntegrandModelUpDown" = [("l1", ["weight", "bias"]), ("l2", ["weight", "bias"])] := by decide
  rw [hl, entry_pair]
  simp only [upDownCall, SDict.get?]
  by_cases h1 : "l1" = a
  · subst h1
    by_cases h3 : "bias" = b
    · subst h3; simp [SDict.get?]
    · by_cases h4 : "weight" = b
      · subst h4; simp [SDict.get?]
      · simp [SDict.get?, h3, h4, Ne.symm h3, Ne.symm h4]
  · by_cases h2 : "l2" = a
    · subst h2
      by_cases h3 : "bias" = b
      · subst h3; simp [SDict.get?]
      · by_cases h4 : "weight" = b
        · subst h4; simp [SDict.get?]
        · simp [SDict.get?, h3, h4, Ne.symm h3, Ne.symm h4]
    · simp [h1, h2]

example (h : Heap) (t : ℝ) : (ccHook h (upDownCall t) ⟨true, true, []⟩).1 = .ok () :=
  C97_cc_models "updown" "AutoShootingIntegrandModelUpDown" (by decide +kernel) h _ (upDownCall_class t) (by simp [upDownCall, entry, SDict.get?]) _ rfl rfl

variable {T X Par Dot N R H D : Type} [LinearOrder T] [OfNat T 0] [Field N]

/-- C97: recording with the model `simple` (which the command line of `cc.py` accepts) fails as soon as the pass evaluates once: after any history, with any dictionary. -/
theorem C97_cc_simple_fails (cfg : Cfg T X Par Dot N R H D) (heap : Heap) (toCall : Args T X Par Dot D → Call) (cc : H)
    (hcc : cfg.hookFails cc = ccFails heap toCall) (hcls : ∀ a, OfClass "AutoShootingIntegrandModelSimple" (toCall a)) (b : Bool) (i : Nat)
    (acts : List (Action T X R Par H D)) (d : D) (l : List (PassOp T X R Par)) (hl : evaluations l ≠ []) :
    Options.circlesModel "simple".toList = .ok "AutoShootingIntegrandModelSimple".toList ∧
    ∃ e, (record cfg cc d l (history cfg acts (fresh b i)).1).2.result = .error e := by
  refine ⟨by decide +kernel, ?_⟩
  obtain ⟨sl, hi⟩ := history_inv cfg acts (fresh b i) [] (fresh_inv b i)
  generalize (history cfg acts (fresh b i)).1 = s at hi ⊢
  have hs := started (R := R) (X := X) (Dot := Dot) cfg cc d hi
  rw [record_eq]
  cases hr : (pass cfg l (step cfg (step cfg s (.register cc)).1 (.setCustom d : Op T X R Par H D)).1).2.result with
  | error e => exact ⟨e, rfl⟩
  | ok u =>
    exfalso
    obtain ⟨-, c2⟩ := (pass_calls cfg l _ hs).2 hr
    have hh := pass_hooks cfg l _ hs hr
    cases hdone : (pass cfg l (step cfg (step cfg s (.register cc)).1 (.setCustom d : Op T X R Par H D)).1).2.done with
    | nil =>
      rw [hdone] at c2
      exact hl c2.symm
    | cons q rest =>
      have := hh q (by rw [hdone]; exact List.mem_cons_self ..) cc (by rw [hooks_inv hs]; simp)
      rw [hcc] at this
      unfold ccFails at this
      change (match (ccHook heap (toCall (told (some d) q)) ⟨true, true, []⟩).1 with
        | .ok _ => none
        | .error e => some e) = none at this
      rw [ccHook_error heap _ (fun hx => absurd ((complete_iff (hcls _)).1 hx).2 (by decide)) ⟨true, true, []⟩ rfl rfl] at this
      cases this

/-- An evaluation of the simple class. -/
noncomputable def simpleCall (t : ℝ) : Call := { upDownCall t with params := [("l1", [("bias", ⟨1, true⟩), ("weight", ⟨2, true⟩)])] }

theorem simpleCall_class (t : ℝ) : OfClass "AutoShootingIntegrandModelSimple" (simpleCall t) := by
  intro a b
  have hl : layersOf "AutoShootingIntegrandModelSimple" = [("l1", ["weight", "bias"])] := by decide
  rw [hl, entry_pair]
  simp only [simpleCall, SDict.get?]
  by_cases h1 : "l1" = a
  · subst h1
    by_cases h3 : "bias" = b
    · subst h3; simp [SDict.get?]
    · by_cases h4 : "weight" = b
      · subst h4; simp [SDict.get?]
      · simp [SDict.get?, h3, h4, Ne.symm h3, Ne.symm h4]
  · simp [h1]

/-- An integrand whose hook 5 is the one of `cc.py` and whose parameter objects are those of the simple class: after training, the recording fails. -/
example (heap : Heap) : ∃ e, (record { demo true with hookFails := fun h a => if h = 5 then ccFails heap (fun _ => simpleCall 0) a else none } 5 0 [.reset, .eval 0 3 (0, 0)]
    (history { demo true with hookFails := fun h a => if h = 5 then ccFails heap (fun _ => simpleCall 0) a else none } [.pass [.reset, .eval 0 1 (0, 0)]] (fresh false 0)).1).2.result = .error e :=
  (C97_cc_simple_fails { demo true with hookFails := fun h a => if h = 5 then ccFails heap (fun _ => simpleCall 0) a else none } heap (fun _ => simpleCall 0) 5 rfl
    (fun _ => simpleCall_class 0) false 0 [.pass [.reset, .eval 0 1 (0, 0)]] 0 [.reset, .eval 0 3 (0, 0)] (by simp [evaluations])).2

end Verif.Sessions
