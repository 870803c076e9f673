import Verif.Hooks.Model

/-!
# Lemmas for the recording hook
-/

namespace Verif.Hooks
open Verif

/-! ## Names -/

/-- Cutting a text at the dots. -/
def splitDots : List Char → List (List Char)
  | [] => [[]]
  | c :: l => if c = '.' then [] :: splitDots l else
    match splitDots l with
    | [] => [[c]]
    | x :: r => (c :: x) :: r

theorem splitDots_ne : ∀ l, splitDots l ≠ []
  | [] => by simp [splitDots]
  | c :: l => by
    unfold splitDots
    split
    · simp
    · split <;> simp

theorem splitDots_append_dot : ∀ (a l : List Char), '.' ∉ a → splitDots (a ++ '.' :: l) = a :: splitDots l
  | [], l, _ => by simp [splitDots]
  | c :: a, l, h => by
    have hc : c ≠ '.' := fun e => h (by simp [e])
    have ih := splitDots_append_dot a l (fun hm => h (by simp [hm]))
    simp only [List.cons_append]
    rw [splitDots, if_neg hc, ih]

theorem splitDots_plain : ∀ a : List Char, '.' ∉ a → splitDots a = [a]
  | [], _ => rfl
  | c :: a, h => by
    have hc : c ≠ '.' := fun e => h (by simp [e])
    rw [splitDots, if_neg hc, splitDots_plain a (fun hm => h (by simp [hm]))]

/-- The parts of a name between the dots. -/
def Key.parts : Key → List (List Char)
  | .time => ["t".toList]
  | .energy => ["energy".toList]
  | .param k p => [k.toList, p.toList]
  | .var b w s => [b.toList, w.text.toList, s.toList]
  | .norm n k p => [n.text.toList ++ '_' :: k.toList, p.toList]
  | .total n => ["sum_".toList ++ n.text.toList]

theorem dot_toList : ".".toList = ['.'] := rfl

theorem splitDots_text (κ : Key) (h : κ.Plain) : splitDots κ.text.toList = κ.parts := by
  cases κ with
  | time => exact splitDots_plain _ (by decide)
  | energy => exact splitDots_plain _ (by decide)
  | param k p =>
    obtain ⟨h1, h2, _⟩ := h
    simp only [Key.text, String.toList_append, Key.parts, List.append_assoc]
    rw [dot_toList, List.cons_append, List.nil_append, splitDots_append_dot _ _ h1, splitDots_plain _ h2]
  | var b w s =>
    obtain ⟨h1, h2⟩ := h
    simp only [Key.text, String.toList_append, Key.parts, List.append_assoc]
    rw [dot_toList, List.cons_append, List.nil_append, List.cons_append, List.nil_append, splitDots_append_dot _ _ h1, splitDots_append_dot _ _ (by cases w <;> decide), splitDots_plain _ h2]
  | norm n k p =>
    obtain ⟨h1, h2⟩ := h
    simp only [Key.text, String.toList_append, Key.parts, List.append_assoc]
    have e : n.text.toList ++ ("_".toList ++ (k.toList ++ (".".toList ++ p.toList))) =
        (n.text.toList ++ '_' :: k.toList) ++ '.' :: p.toList := by simp
    rw [e, splitDots_append_dot, splitDots_plain _ h2]
    intro hm
    simp only [List.mem_append, List.mem_cons] at hm
    rcases hm with hm | hm | hm
    · revert hm; cases n <;> decide
    · revert hm; decide
    · exact h1 hm
  | total n =>
    simp only [Key.text, String.toList_append, Key.parts]
    exact splitDots_plain _ (by cases n <;> decide)

theorem norm_prefix_inj {n n' : Kind} {a a' : List Char} (h : n.text.toList ++ '_' :: a = n'.text.toList ++ '_' :: a') : n = n' ∧ a = a' := by
  cases n <;> cases n' <;> simp [Kind.text] at h ⊢ <;> exact h

theorem sqr_prefix (n : Kind) (a : List Char) : "sqr_".toList <+: n.text.toList ++ '_' :: a := by
  cases n <;> exact ⟨_, rfl⟩

theorem toList_inj {a b : String} (h : a.toList = b.toList) : a = b := String.toList_inj.1 h

/-- Different plain keys have different names. -/
theorem text_inj {κ κ' : Key} (h : κ.Plain) (h' : κ'.Plain) (e : κ.text = κ'.text) : κ = κ' := by
  have hp : κ.parts = κ'.parts := by rw [← splitDots_text κ h, ← splitDots_text κ' h', e]
  cases κ <;> cases κ' <;> simp only [Key.parts, List.cons.injEq, and_true, reduceCtorEq, and_false] at hp <;> try rfl
  · exact absurd hp (by decide)
  · next n => exact absurd hp (by cases n <;> decide)
  · exact absurd hp (by decide)
  · next n => exact absurd hp (by cases n <;> decide)
  · rw [toList_inj hp.1, toList_inj hp.2]
  · exact absurd (hp.1 ▸ sqr_prefix _ _) h.2.2
  · next b w s b' w' s' =>
    rw [toList_inj hp.1, toList_inj hp.2.2]
    have : w = w' := by
      have h2 := hp.2.1
      cases w <;> cases w' <;> first | rfl | exact absurd h2 (by decide)
    rw [this]
  · exact absurd (hp.1 ▸ sqr_prefix _ _) h'.2.2
  · obtain ⟨h1, h2⟩ := norm_prefix_inj hp.1
    rw [h1, toList_inj h2, toList_inj hp.2]
  · next n => exact absurd hp (by cases n <;> decide)
  · next n => exact absurd hp (by cases n <;> decide)
  · next n n' =>
    have : n = n' := by cases n <;> cases n' <;> first | rfl | exact absurd hp (by decide)
    rw [this]

/-! ## Records -/

/-- The list recorded under a name, empty if there is none. -/
def recorded (log : PDict String (List Rec)) (k : String) : List Rec := (log.get? k).getD []

/-- Appending one value. -/
def appendLog (log : PDict String (List Rec)) (e : String × Rec) : PDict String (List Rec) := log.set e.1 (recorded log e.1 ++ [e.2])

theorem recorded_append (log : PDict String (List Rec)) (e : String × Rec) (k : String) :
    recorded (appendLog log e) k = if e.1 = k then recorded log k ++ [e.2] else recorded log k := by
  unfold appendLog recorded
  rw [PDict.get?_set]
  split
  · next h => rw [h]; rfl
  · rfl

theorem recorded_appendAll (l : List (String × Rec)) (log : PDict String (List Rec)) (k : String) :
    recorded (l.foldl appendLog log) k = recorded log k ++ (l.filter (fun e => decide (e.1 = k))).map Prod.snd := by
  induction l generalizing log with
  | nil => simp
  | cons e l ih =>
    rw [List.foldl_cons, ih, recorded_append]
    by_cases h : e.1 = k <;> simp [h]

theorem emit_run (k : String) (v : Rec) (c : Custom) (hc : c.makesList = true) :
    emit k v c = (.ok (), { c with log := appendLog c.log (k, v) }) := by
  unfold emit appendLog recorded
  cases h : c.log.get? k with
  | none => simp [hc]
  | some l => simp

theorem bind_run {α β : Type} (x : Run α) (f : α → Run β) (c c' : Custom) (a : α) (h : x c = (.ok a, c')) : (x >>= f) c = f a c' := by
  change (match x c with | (a, s) => ExceptT.bindCont f a s) = _
  rw [h]
  rfl

theorem bind_run_error {α β : Type} (x : Run α) (f : α → Run β) (c c' : Custom) (e : Err) (h : x c = (.error e, c')) :
    (x >>= f) c = (.error e, c') := by
  change (match x c with | (a, s) => ExceptT.bindCont f a s) = _
  rw [h]
  rfl

/-- Emitting a list of values. -/
def emitAll (l : List (String × Rec)) : Run Unit := forM l fun e => emit e.1 e.2

theorem emitAll_run (l : List (String × Rec)) (c : Custom) (hc : c.makesList = true) :
    emitAll l c = (.ok (), { c with log := l.foldl appendLog c.log }) := by
  induction l generalizing c with
  | nil => rfl
  | cons e l ih =>
    unfold emitAll at ih ⊢
    rw [List.forM_cons, bind_run _ _ c _ () (emit_run e.1 e.2 c hc)]
    exact ih { c with log := appendLog c.log (e.1, e.2) } hc

theorem flat_cons {V : Type} (b : String × SDict String V) (d : SDict String (SDict String V)) :
    flat (b :: d) = (b.2.map fun s => (b.1, s.1, s.2)) ++ flat d := rfl

theorem forM_flat {V : Type} (d : SDict String (SDict String V)) (f : String → String → V → Run Unit) :
    (forM d fun b => forM b.2 fun s => f b.1 s.1 s.2) = forM (flat d) fun x => f x.1 x.2.1 x.2.2 := by
  induction d with
  | nil => rfl
  | cons b d ih =>
    rw [List.forM_cons, ih, flat_cons, List.forM_append, List.forM_map]

theorem recordDict_eq (h : Heap) (d : Dict2) (w : Which) :
    recordDict h d w.text = emitAll ((flat d).map fun x => ((Key.var x.1 w x.2.1).text, .arr (store h x.2.2))) := by
  unfold recordDict emitAll
  rw [List.forM_map]
  exact forM_flat d fun b s v => emit (b ++ "." ++ w.text ++ "." ++ s) (.arr (store h v))

theorem foldlM_flat {m : Type → Type} [Monad m] [LawfulMonad m] {V A : Type} (d : SDict String (SDict String V)) (f : String → A → String × V → m A) (a : A) :
    d.foldlM (fun a b => b.2.foldlM (f b.1) a) a = (flat d).foldlM (fun a x => f x.1 a x.2) a := by
  induction d generalizing a with
  | nil => rfl
  | cons b d ih =>
    rw [List.foldlM_cons, flat_cons, List.foldlM_append, List.foldlM_map]
    exact bind_congr fun a => ih a

theorem energy_run (h : Heap) (l : List (String × String × Ref)) (e : ℝ) (c : Custom) (hc : c.makesList = true) (hl : ∀ x ∈ l, x.2.2.onCpu = true) :
    l.foldlM (fun e x => energyStep h x.1 e x.2) e c =
      (.ok (e + 0.5 * (l.map fun x => (h x.2.2.addr).sumSq).sum),
        { c with log := (l.map fun x => ((Key.param x.1 x.2.1).text, Rec.arr (store h x.2.2))).foldl appendLog c.log }) := by
  induction l generalizing e c with
  | nil =>
    simp only [List.foldlM_nil, List.map_nil, List.sum_nil, mul_zero, add_zero, List.foldl_nil]
    rfl
  | cons x l ih =>
    rw [List.foldlM_cons]
    have h1 : energyStep h x.1 e x.2 c = (.ok (e + 0.5 * (h x.2.2.addr).sumSq), { c with log := appendLog c.log ((Key.param x.1 x.2.1).text, Rec.arr (store h x.2.2)) }) := by
      unfold energyStep
      rw [bind_run _ _ c _ () (emit_run _ _ c hc), if_pos (hl x (by simp))]
      rfl
    rw [bind_run _ _ c _ _ h1, ih _ _ (by exact hc) fun y hy => hl y (by simp [hy])]
    simp only [List.map_cons, List.sum_cons, List.foldl_cons, mul_add, add_assoc]

/-! ## Norms -/

/-- The value of a squared norm of a matrix; 0 for other tensors (not used for them). -/
noncomputable def normValue (sv : Svd) : Kind → Tensor → ℝ
  | .frobenius, t => t.sumSq
  | .nuclear, .matrix m n a => (sv m n a).sum ^ 2
  | .spectral, .matrix m n a => (sv m n a).headD 0 ^ 2
  | _, .other _ => 0

/-- A matrix with at least one singular value. -/
def HasNorms (sv : Svd) : Tensor → Prop
  | .matrix m n a => sv m n a ≠ []
  | .other _ => False

theorem sumSq_nonneg (t : Tensor) : 0 ≤ t.sumSq := by
  cases t with
  | matrix m n a => exact Finset.sum_nonneg fun _ _ => Finset.sum_nonneg fun _ _ => sq_nonneg _
  | other xs => exact List.sum_nonneg fun x hx => by simp only [List.mem_map] at hx; obtain ⟨y, _, rfl⟩ := hx; exact sq_nonneg y

theorem sqrFro_eq (t : Tensor) : sqrFro t = t.sumSq := Real.sq_sqrt (sumSq_nonneg t)

/-- The parameters whose norms are computed. -/
def notBias (l : List (String × String × Ref)) : List (String × String × Ref) := l.filter fun x => x.2.1 ≠ "bias"

/-- The three norms of one parameter. -/
noncomputable def triple (sv : Svd) (h : Heap) (x : String × String × Ref) : List (Key × ℝ) :=
  [(.norm .frobenius x.1 x.2.1, normValue sv .frobenius (h x.2.2.addr)), (.norm .nuclear x.1 x.2.1, normValue sv .nuclear (h x.2.2.addr)),
    (.norm .spectral x.1 x.2.1, normValue sv .spectral (h x.2.2.addr))]

/-- The sum of a norm over parameters. -/
noncomputable def totalValue (sv : Svd) (h : Heap) (k : Kind) (l : List (String × String × Ref)) : ℝ :=
  (l.map fun x => normValue sv k (h x.2.2.addr)).sum

/-- Everything `compute_parameter_norms` computes. -/
noncomputable def normEntries (sv : Svd) (h : Heap) (l : List (String × String × Ref)) : List (Key × ℝ) :=
  (notBias l).flatMap (triple sv h) ++
    [(.total .frobenius, totalValue sv h .frobenius (notBias l)), (.total .nuclear, totalValue sv h .nuclear (notBias l)),
      (.total .spectral, totalValue sv h .spectral (notBias l))]

theorem normStep_bias (sv : Svd) (h : Heap) (k : String) (a : Norms) (p : String × Ref) (hp : p.1 = "bias") : normStep sv h k a p = .ok a := by
  unfold normStep; rw [if_pos hp]

theorem normStep_ok (sv : Svd) (h : Heap) (k : String) (a : Norms) (p : String × Ref) (hp : p.1 ≠ "bias") (hn : HasNorms sv (h p.2.addr)) :
    normStep sv h k a p = .ok ⟨((a.dict.set (Key.norm .frobenius k p.1).text (normValue sv .frobenius (h p.2.addr))).set
      (Key.norm .nuclear k p.1).text (normValue sv .nuclear (h p.2.addr))).set (Key.norm .spectral k p.1).text (normValue sv .spectral (h p.2.addr)),
      a.fro + normValue sv .frobenius (h p.2.addr), a.nuc + normValue sv .nuclear (h p.2.addr), a.spe + normValue sv .spectral (h p.2.addr)⟩ := by
  unfold normStep
  rw [if_neg hp]
  cases ht : h p.2.addr with
  | other xs => rw [ht] at hn; exact hn.elim
  | matrix m n b =>
    rw [ht] at hn
    cases hs : sv m n b with
    | nil => exact absurd hs hn
    | cons s l =>
      simp only [sqrFro_eq, sqrNuc, sqrSpe, hs, normValue, bind, Except.bind, List.headD_cons]
      have e : ∀ n : Kind, (Key.norm n k p.1).text = n.text ++ "_" ++ k ++ "." ++ p.1 := fun _ => rfl
      simp only [e, Kind.text]
      rfl

theorem normStep_error (sv : Svd) (h : Heap) (k : String) (a : Norms) (p : String × Ref) (hp : p.1 ≠ "bias") (hn : ¬ HasNorms sv (h p.2.addr)) :
    ∃ e, normStep sv h k a p = .error e := by
  unfold normStep
  rw [if_neg hp]
  cases ht : h p.2.addr with
  | other xs => exact ⟨_, rfl⟩
  | matrix m n b =>
    rw [ht] at hn
    have hs : sv m n b = [] := not_not.1 hn
    refine ⟨.indexError, ?_⟩
    simp only [sqrNuc, sqrSpe, hs, bind, Except.bind]

/-- Setting a list of values one after the other. -/
def setAll (d : PDict String ℝ) (l : List (Key × ℝ)) : PDict String ℝ := l.foldl (fun d e => d.set e.1.text e.2) d

theorem norms_loop (sv : Svd) (h : Heap) (l : List (String × String × Ref)) (a : Norms) (hn : ∀ x ∈ notBias l, HasNorms sv (h x.2.2.addr)) :
    l.foldlM (fun a x => normStep sv h x.1 a x.2) a = (.ok ⟨setAll a.dict ((notBias l).flatMap (triple sv h)),
      a.fro + totalValue sv h .frobenius (notBias l), a.nuc + totalValue sv h .nuclear (notBias l),
      a.spe + totalValue sv h .spectral (notBias l)⟩ : Py Norms) := by
  induction l generalizing a with
  | nil => simp [notBias, setAll, totalValue, pure, Except.pure]
  | cons x l ih =>
    rw [List.foldlM_cons]
    by_cases hx : x.2.1 = "bias"
    · have hb : notBias (x :: l) = notBias l := by simp [notBias, hx]
      rw [hb] at hn ⊢
      rw [normStep_bias sv h x.1 a x.2 hx]
      exact ih a hn
    · have hb : notBias (x :: l) = x :: notBias l := by simp [notBias, hx]
      rw [hb] at hn ⊢
      rw [normStep_ok sv h x.1 a x.2 hx (hn x (by simp))]
      refine (ih _ fun y hy => hn y (by simp [hy])).trans ?_
      simp only [List.flatMap_cons, setAll, triple, List.cons_append, List.nil_append, List.foldl_cons, totalValue, List.map_cons,
        List.sum_cons, add_assoc]

theorem norms_loop_error (sv : Svd) (h : Heap) (l : List (String × String × Ref)) (a : Norms) (hn : ∃ x ∈ notBias l, ¬ HasNorms sv (h x.2.2.addr)) :
    ∃ e, l.foldlM (fun a x => normStep sv h x.1 a x.2) a = (.error e : Py Norms) := by
  induction l generalizing a with
  | nil => obtain ⟨x, hx, _⟩ := hn; simp [notBias] at hx
  | cons x l ih =>
    rw [List.foldlM_cons]
    by_cases hx : x.2.1 = "bias"
    · have hb : notBias (x :: l) = notBias l := by simp [notBias, hx]
      rw [hb] at hn
      rw [normStep_bias sv h x.1 a x.2 hx]
      exact ih a hn
    · have hb : notBias (x :: l) = x :: notBias l := by simp [notBias, hx]
      rw [hb] at hn
      by_cases hx' : HasNorms sv (h x.2.2.addr)
      · obtain ⟨y, hy, hy'⟩ := hn
        have hy2 : y ∈ notBias l := by
          rcases List.mem_cons.1 hy with rfl | hy
          · exact absurd hx' hy'
          · exact hy
        rw [normStep_ok sv h x.1 a x.2 hx hx']
        exact ih _ ⟨y, hy2, hy'⟩
      · obtain ⟨e, he⟩ := normStep_error sv h x.1 a x.2 hx hx'
        rw [he]
        exact ⟨e, rfl⟩

theorem setAll_eq (l : List (Key × ℝ)) (d : PDict String ℝ) (h : ((PDict.keys d) ++ l.map fun e => e.1.text).Nodup) :
    setAll d l = d ++ l.map fun e => (e.1.text, e.2) := by
  induction l generalizing d with
  | nil => simp [setAll]
  | cons e l ih =>
    have hm : e.1.text ∉ PDict.keys d := by
      intro hm
      rw [List.nodup_append] at h
      exact h.2.2 _ hm _ (by simp) rfl
    unfold setAll at ih ⊢
    rw [List.foldl_cons, PDict.set_of_not_mem hm, ih]
    · simp
    · rw [PDict.keys_append]
      simpa [List.append_assoc] using h

/-- All names of parameters are plain. -/
def PlainPar (l : List (String × String × Ref)) : Prop := ∀ x ∈ l, (Key.param x.1 x.2.1).Plain

/-- The pairs of names are different. -/
def NodupNames {V : Type} (l : List (String × String × V)) : Prop := (l.map fun x => (x.1, x.2.1)).Nodup

theorem nodup_triples (sv : Svd) (h : Heap) (l : List (String × String × Ref)) (hd : NodupNames l) : ((l.flatMap (triple sv h)).map Prod.fst).Nodup := by
  induction l with
  | nil => simp
  | cons x l ih =>
    have hd' : (x.1, x.2.1) ∉ (l.map fun x => (x.1, x.2.1)) ∧ NodupNames l := by
      unfold NodupNames at hd ⊢; rw [List.map_cons, List.nodup_cons] at hd; exact hd
    rw [List.flatMap_cons, List.map_append, List.nodup_append]
    refine ⟨by simp [triple], ih hd'.2, ?_⟩
    intro a ha b hb e
    subst e
    apply hd'.1
    simp only [List.mem_map, List.mem_flatMap] at ha hb ⊢
    obtain ⟨⟨a1, v1⟩, ha, rfl⟩ := ha
    obtain ⟨⟨a2, v2⟩, ⟨y, hy, hb⟩, hab⟩ := hb
    refine ⟨y, hy, ?_⟩
    simp only [triple, List.mem_cons, Prod.mk.injEq, List.not_mem_nil, or_false] at ha hb
    simp only at hab
    subst hab
    rcases ha with ⟨h1, _⟩ | ⟨h1, _⟩ | ⟨h1, _⟩ <;> rcases hb with ⟨h2, _⟩ | ⟨h2, _⟩ | ⟨h2, _⟩ <;> rw [h1] at h2 <;>
      (injection h2 with _ h3 h4; rw [h3, h4])

theorem nodup_normEntries (sv : Svd) (h : Heap) (l : List (String × String × Ref)) (hd : NodupNames l) : ((normEntries sv h l).map Prod.fst).Nodup := by
  have hd' : NodupNames (notBias l) := by
    unfold NodupNames notBias at *
    exact hd.sublist (List.filter_sublist.map _)
  unfold normEntries
  rw [List.map_append, List.nodup_append]
  refine ⟨nodup_triples sv h _ hd', by simp, ?_⟩
  intro a ha b hb e
  subst e
  simp only [List.map_cons, List.map_nil, List.mem_cons, List.not_mem_nil, or_false] at hb
  simp only [List.mem_map, List.mem_flatMap] at ha
  obtain ⟨⟨a1, v1⟩, ⟨y, hy, ha⟩, rfl⟩ := ha
  simp only [triple, List.mem_cons, Prod.mk.injEq, List.not_mem_nil, or_false] at ha
  simp only at hb
  rcases ha with ⟨h1, _⟩ | ⟨h1, _⟩ | ⟨h1, _⟩ <;> rw [h1] at hb <;> rcases hb with hb | hb | hb <;> cases hb

theorem plain_normEntries (sv : Svd) (h : Heap) (l : List (String × String × Ref)) (hp : PlainPar l) : ∀ e ∈ normEntries sv h l, e.1.Plain := by
  intro e he
  unfold normEntries at he
  rw [List.mem_append, List.mem_flatMap] at he
  rcases he with ⟨y, hy, he⟩ | he
  · have h1 := hp y (List.mem_of_mem_filter hy)
    simp only [triple, List.mem_cons, List.not_mem_nil, or_false] at he
    rcases he with rfl | rfl | rfl <;> exact ⟨h1.1, h1.2.1⟩
  · simp only [List.mem_cons, List.not_mem_nil, or_false] at he
    rcases he with rfl | rfl | rfl <;> exact trivial

theorem nodup_text {l : List (Key × ℝ)} (hd : (l.map Prod.fst).Nodup) (hp : ∀ e ∈ l, e.1.Plain) : (l.map fun e => e.1.text).Nodup := by
  have : (l.map fun e => e.1.text) = (l.map Prod.fst).map Key.text := by simp
  rw [this]
  refine List.Nodup.map_on ?_ hd
  intro a ha b hb e
  simp only [List.mem_map] at ha hb
  obtain ⟨x, hx, rfl⟩ := ha
  obtain ⟨y, hy, rfl⟩ := hb
  exact text_inj (hp x hx) (hp y hy) e

theorem computeNorms_ok (sv : Svd) (h : Heap) (params : Dict2) (hn : ∀ x ∈ notBias (flat params), HasNorms sv (h x.2.2.addr))
    (hp : PlainPar (flat params)) (hd : NodupNames (flat params)) :
    computeNorms sv h params = .ok ((normEntries sv h (flat params)).map fun e => (e.1.text, e.2)) := by
  unfold computeNorms
  rw [foldlM_flat, norms_loop sv h _ _ hn]
  have e := setAll_eq (normEntries sv h (flat params)) [] (by
    rw [PDict.keys_nil, List.nil_append]; exact nodup_text (nodup_normEntries sv h _ hd) (plain_normEntries sv h _ hp))
  rw [List.nil_append] at e
  rw [← e]
  simp only [bind, Except.bind, setAll, normEntries, List.foldl_append, List.foldl_cons, List.foldl_nil, zero_add]
  rfl

theorem computeNorms_error (sv : Svd) (h : Heap) (params : Dict2) (hn : ∃ x ∈ notBias (flat params), ¬ HasNorms sv (h x.2.2.addr)) :
    ∃ e, computeNorms sv h params = .error e := by
  obtain ⟨e, he⟩ := norms_loop_error sv h (flat params) ⟨[], 0, 0, 0⟩ hn
  refine ⟨e, ?_⟩
  unfold computeNorms
  rw [foldlM_flat, he]
  rfl

/-! ## The hook as a list of records -/

/-- The variables of one group. -/
def Call.group (c : Call) : Which → Dict2
  | .state => c.state
  | .costate => c.costate
  | .data => c.data
  | .dotState => c.dotState
  | .dotCostate => c.dotCostate
  | .dotData => c.dotData

/-- The records of one group. -/
def groupEntries (h : Heap) (c : Call) (w : Which) : List (Key × Rec) := (flat (c.group w)).map fun x => (.var x.1 w x.2.1, .arr (store h x.2.2))

/-- The records before the norms. -/
noncomputable def firstEntries (h : Heap) (c : Call) : List (Key × Rec) :=
  [(.time, .num c.t)] ++ ((flat c.params).map fun x => (.param x.1 x.2.1, .arr (store h x.2.2))) ++
    [(.energy, .num (0.5 * ((flat c.params).map fun x => (h x.2.2.addr).sumSq).sum))] ++
    (groupEntries h c .state ++ (groupEntries h c .costate ++ (groupEntries h c .data ++ (groupEntries h c .dotState ++
      (groupEntries h c .dotCostate ++ groupEntries h c .dotData)))))

/-- All records of a call. -/
noncomputable def entries (sv : Svd) (h : Heap) (c : Call) : List (Key × Rec) :=
  firstEntries h c ++ (normEntries sv h (flat c.params)).map fun e => (e.1, .num e.2)

/-- The names as texts. -/
def texts (l : List (Key × Rec)) : List (String × Rec) := l.map fun e => (e.1.text, e.2)

/-- A call whose names can be told apart. -/
structure Call.Good (c : Call) : Prop where
  distinct : Distinct c.params ∧ ∀ w, Distinct (c.group w)
  params : PlainPar (flat c.params)
  vars : ∀ w, ∀ x ∈ flat (c.group w), (Key.var x.1 w x.2.1).Plain
  cpu : ∀ x ∈ flat c.params, x.2.2.onCpu = true

theorem nodupNames_flat {V : Type} {d : SDict String (SDict String V)} (h : Distinct d) : NodupNames (flat d) := by
  obtain ⟨h1, h2⟩ := h
  unfold NodupNames flat
  induction d with
  | nil => simp
  | cons b d ih =>
    rw [SDict.keys_cons, List.nodup_cons] at h1
    rw [List.flatMap_cons, List.map_append, List.nodup_append]
    refine ⟨?_, ih h1.2 fun b hb => h2 b (by simp [hb]), ?_⟩
    · rw [List.map_map]
      have := h2 b (by simp)
      unfold SDict.keys at this
      have h3 := List.Nodup.map (f := fun s : String => (b.1, s)) (fun x y e => (Prod.mk.inj e).2) this
      rw [List.map_map] at h3
      exact h3
    · intro x hx y hy e
      subst e
      simp only [List.mem_map, List.mem_flatMap] at hx hy
      obtain ⟨_, ⟨s, hs, rfl⟩, rfl⟩ := hx
      obtain ⟨_, ⟨b', hb', s', hs', rfl⟩, e⟩ := hy
      simp only [Prod.mk.injEq] at e
      exact h1.1 (by rw [← e.1]; exact List.mem_map_of_mem hb')

theorem first_run (sv : Svd) (h : Heap) (c : Call) (d : Custom) (hd : d.isDefaultdict = true) (hl : d.makesList = true)
    (hc : ∀ x ∈ flat c.params, x.2.2.onCpu = true) :
    hook sv h c d = (do let norms ← lift (computeNorms sv h c.params); forM norms fun e => emit e.1 (.num e.2) : Run Unit)
      { d with log := (texts (firstEntries h c)).foldl appendLog d.log } := by
  unfold hook
  rw [bind_run (get : Run Custom) _ d d d rfl]
  simp only [hd, Bool.not_true, Bool.false_eq_true, if_false]
  rw [bind_run _ _ d _ () (emit_run _ _ d hl)]
  rw [foldlM_flat, bind_run _ _ _ _ _ (energy_run h _ _ _ (by exact hl) hc)]
  rw [bind_run _ _ _ _ () (emit_run _ _ _ (by exact hl))]
  have e := fun (w : Which) (d : Custom) (hl : d.makesList = true) => (congrFun (recordDict_eq h (c.group w) w) d).trans (emitAll_run _ d hl)
  rw [bind_run (recordDict h c.state "state") _ _ _ () (e .state _ (by exact hl)), bind_run (recordDict h c.costate "costate") _ _ _ () (e .costate _ (by exact hl)),
    bind_run (recordDict h c.data "data") _ _ _ () (e .data _ (by exact hl)), bind_run (recordDict h c.dotState "dot_state") _ _ _ () (e .dotState _ (by exact hl)),
    bind_run (recordDict h c.dotCostate "dot_costate") _ _ _ () (e .dotCostate _ (by exact hl)),
    bind_run (recordDict h c.dotData "dot_data") _ _ _ () (e .dotData _ (by exact hl))]
  simp only [hd, texts, firstEntries, groupEntries, List.map_append, List.foldl_append, List.map_cons, List.map_nil, List.foldl_cons, List.foldl_nil,
    List.map_map, Function.comp_def, zero_add]
  rfl

theorem hook_run (sv : Svd) (h : Heap) (c : Call) (d : Custom) (hd : d.isDefaultdict = true) (hl : d.makesList = true) (hc : c.Good)
    (hn : ∀ x ∈ notBias (flat c.params), HasNorms sv (h x.2.2.addr)) :
    hook sv h c d = (.ok (), { d with log := (texts (entries sv h c)).foldl appendLog d.log }) := by
  rw [first_run sv h c d hd hl hc.cpu]
  rw [bind_run _ _ _ _ _ (show lift (computeNorms sv h c.params) _ = _ from
    congrArg (fun x => (x, _)) (computeNorms_ok sv h c.params hn hc.params (nodupNames_flat hc.distinct.1)))]
  have e := emitAll_run (texts ((normEntries sv h (flat c.params)).map fun e => (e.1, .num e.2)))
    { d with log := (texts (firstEntries h c)).foldl appendLog d.log } hl
  have e2 : (forM ((normEntries sv h (flat c.params)).map fun e => (e.1.text, e.2)) fun e => emit e.1 (.num e.2)) =
      emitAll (texts ((normEntries sv h (flat c.params)).map fun e => (e.1, .num e.2))) := by
    unfold emitAll texts
    rw [List.forM_map, List.forM_map, List.forM_map]
  rw [e2, e]
  simp only [entries, texts, List.map_append, List.foldl_append]

/-! ## What is recorded under a key -/

theorem filter_flat {V : Type} {d : SDict String (SDict String V)} (h : Distinct d) (a b : String) :
    ((flat d).filter fun x => decide (x.1 = a ∧ x.2.1 = b)).map (fun x => x.2.2) = (entry d a b).toList := by
  have inner : ∀ l : SDict String V, (SDict.keys l).Nodup → (l.filter fun s => decide (s.1 = b)).map Prod.snd = (SDict.get? l b).toList := by
    intro l hl
    induction l with
    | nil => rfl
    | cons s l ih =>
      rw [SDict.keys_cons, List.nodup_cons] at hl
      rw [SDict.get?_cons]
      by_cases hs : s.1 = b
      · have : l.filter (fun s => decide (s.1 = b)) = [] := by
          rw [List.filter_eq_nil_iff]
          intro x hx hxb
          simp only [decide_eq_true_eq] at hxb
          exact hl.1 (by rw [hs, ← hxb]; exact SDict.mem_keys_of_mem hx)
        simp [hs, this]
      · simp [hs, ih hl.2]
  obtain ⟨h1, h2⟩ := h
  unfold flat entry
  induction d with
  | nil => rfl
  | cons x d ih =>
    rw [SDict.keys_cons, List.nodup_cons] at h1
    have ih' := ih h1.2 fun b hb => h2 b (by simp [hb])
    rw [List.flatMap_cons, List.filter_append, List.map_append, ih', SDict.get?_cons, List.filter_map, List.map_map]
    by_cases hx : x.1 = a
    · have e : SDict.get? d a = none := SDict.get?_eq_none_iff.2 (hx ▸ h1.1)
      have := inner x.2 (h2 x (by simp))
      simp only [hx, Function.comp_def, true_and, if_true, Option.bind_some, e, Option.bind_none, Option.toList_none, List.append_nil]
      exact this
    · have : x.2.filter ((fun x => decide (x.1 = a ∧ x.2.1 = b)) ∘ fun s => (x.1, s.1, s.2)) = [] := by
        rw [List.filter_eq_nil_iff]
        intro y _ hy
        simp only [Function.comp_def, decide_eq_true_eq] at hy
        exact hx hy.1
      rw [this, if_neg hx]
      rfl

/-- The values with key `κ`. -/
def valuesOf {V : Type} (κ : Key) (l : List (Key × V)) : List V := (l.filter fun e => decide (e.1 = κ)).map Prod.snd

theorem valuesOf_append {V : Type} (κ : Key) (l l' : List (Key × V)) : valuesOf κ (l ++ l') = valuesOf κ l ++ valuesOf κ l' := by
  simp [valuesOf]

theorem valuesOf_nil_of {V : Type} (κ : Key) (l : List (Key × V)) (h : ∀ e ∈ l, e.1 ≠ κ) : valuesOf κ l = [] := by
  unfold valuesOf
  rw [List.map_eq_nil_iff, List.filter_eq_nil_iff]
  intro e he h2
  exact h e he (of_decide_eq_true h2)

theorem filter_texts (κ : Key) (hκ : κ.Plain) (l : List (Key × Rec)) (hl : ∀ e ∈ l, e.1.Plain) :
    ((texts l).filter fun e => decide (e.1 = κ.text)).map Prod.snd = valuesOf κ l := by
  unfold texts valuesOf
  rw [List.filter_map, List.map_map]
  have : l.filter ((fun e => decide (e.1 = κ.text)) ∘ fun e => (e.1.text, e.2)) = l.filter fun e => decide (e.1 = κ) := by
    refine List.filter_congr fun e he => ?_
    simp only [Function.comp_def]
    by_cases hk : e.1 = κ
    · simp [hk]
    · have : e.1.text ≠ κ.text := fun h => hk (text_inj (hl e he) hκ h)
      simp [hk, this]
  rw [this]
  rfl

theorem valuesOf_map_flat {V W : Type} {d : SDict String (SDict String V)} (hd : Distinct d) (mk : String → String → Key)
    (hmk : ∀ a b a' b', mk a b = mk a' b' ↔ a = a' ∧ b = b') (f : V → W) (a b : String) :
    valuesOf (mk a b) ((flat d).map fun x => (mk x.1 x.2.1, f x.2.2)) = ((entry d a b).map f).toList := by
  have h := congrArg (List.map f) (filter_flat hd a b)
  unfold valuesOf
  rw [List.filter_map, List.map_map]
  rw [List.map_map] at h
  have e : ∀ o : Option V, (o.map f).toList = o.toList.map f := fun o => by cases o <;> rfl
  rw [e, ← h]
  congr 1
  refine List.filter_congr fun x _ => ?_
  simp only [Function.comp_def, hmk]

end Verif.Hooks
