import Verif.Options.Spec
import Verif.Shell.Props

/-!
# Lemmas about parsing
-/

namespace Verif.Options
open Verif Verif.Cli Verif.Shell

variable {P : Parser}

/-! ## What an argument is -/

theorem classify_value {s : Str} (h : isValue s = true) : classify P s = .value := by
  unfold isValue at h
  rw [Bool.or_eq_true, decide_eq_true_eq] at h
  match s, h with
  | [], _ => rfl
  | c :: t, h =>
    by_cases hc : c = '-'
    · subst hc
      have hn : negative ('-' :: t) = true := h.resolve_left fun h => h rfl
      match t, hn with
      | [], _ => rfl
      | c' :: t, hn =>
        have h1 : c' ≠ '-' := by
          rintro rfl
          simp [negative, takeDigits, digitValue] at hn
        have h2 : c' ≠ 'h' := by
          rintro rfl
          simp [negative, takeDigits, digitValue] at hn
        have : classify P ('-' :: c' :: t) = otherwise ('-' :: c' :: t) := by
          unfold classify
          split <;> simp_all
        rw [this, otherwise, hn]
        rfl
    · unfold classify
      split <;> simp_all

theorem find_of_mem (hP : (P.map Opt.name).Nodup) {o : Opt} (ho : o ∈ P) : find P o.name = some o := by
  unfold find
  induction P with
  | nil => cases ho
  | cons q P ih =>
    rw [List.map_cons, List.nodup_cons] at hP
    rw [List.find?_cons]
    rcases List.mem_cons.1 ho with rfl | ho
    · simp
    · have : q.name ≠ o.name := fun e => hP.1 (e ▸ List.mem_map_of_mem ho)
      simp only [this, decide_false]
      exact ih hP.2 ho

theorem find_none {n : Str} (h : ∀ o ∈ P, o.name ≠ n) : find P n = none := by
  unfold find
  rw [List.find?_eq_none]
  simpa using h

theorem find_some {n : Str} {o : Opt} (h : find P n = some o) : o ∈ P ∧ o.name = n := by
  unfold find at h
  exact ⟨List.mem_of_find?_eq_some h, by simpa using List.find?_some h⟩

theorem classify_option (hP : WellFormed P) {o : Opt} (ho : o ∈ P) : classify P ("--".toList ++ o.name) = .option o none := by
  obtain ⟨h1, h2⟩ := hP.2 o ho
  show longOption P o.name = _
  unfold longOption
  rw [if_neg h1, if_neg (show ¬ o.name = helpName from h2), find_of_mem hP.1 ho]

theorem splitEq_none {s : Str} (h : '=' ∉ s) : splitEq s = none := by
  induction s with
  | nil => rfl
  | cons c s ih =>
    have h1 : c ≠ '=' := fun e => h (by simp [e])
    rw [splitEq, if_neg h1, ih fun hm => h (by simp [hm])]
    rfl

theorem otherwise_dashes {k : Str} (h : ' ' ∉ k) : otherwise ('-' :: '-' :: k) = .unknown := by
  unfold otherwise
  have h1 : negative ('-' :: '-' :: k) = false := by
    simp [negative, takeDigits, digitValue]
  have h2 : List.contains ('-' :: '-' :: k) ' ' = false := by
    simp [h]
  rw [h1, h2]
  rfl

theorem completions_foreign {k : Str} (h : Foreign P k) : completions P k = [] := by
  unfold completions
  rw [if_neg (show ¬ k <+: helpName from h.2.2.2.1), List.nil_append, List.map_eq_nil_iff, List.filter_eq_nil_iff]
  simpa using h.2.2.2.2

theorem classify_foreign {k : Str} (h : Foreign P k) : classify P ("--".toList ++ k) = .unknown := by
  show longOption P k = _
  unfold longOption
  have h1 : ¬ k = helpName := fun e => h.2.2.2.1 (e ▸ List.prefix_refl _)
  have h2 : find P k = none := find_none fun o ho e => h.2.2.2.2 o ho (e ▸ List.prefix_refl _)
  rw [if_neg h.1, if_neg h1, h2, splitEq_none h.2.1, abbreviated, completions_foreign h]
  exact otherwise_dashes h.2.2.1

/-! ## Storing -/

theorem store_eq {o : Opt} {s : Str} (ns : Namespace) : store o s ns = ((convert o.kind s).filter (allowed o.choices)).map (ns.set o.name) := by
  unfold store
  cases convert o.kind s with
  | none => rfl
  | some v =>
    by_cases h : allowed o.choices v = true
    · simp [h, Option.filter]
    · simp [h, Option.filter]

theorem consume_entry (hP : WellFormed P) {o : Opt} (ho : o ∈ P) {v : Val} {x : Value} (h : asked o v = some x) (rest : List Str) (e : Bool) (ns : Namespace) :
    consume P (argOf (o.name, v) ++ rest) none e ns = consume P rest none e (ns.set o.name x) := by
  rw [argOf_eq]
  unfold asked at h
  by_cases hf : o.kind = .flag
  · rw [if_pos hf] at h
    split at h
    · rename_i hv
      obtain rfl := Option.some.inj h
      rw [if_pos hv, List.cons_append, consume, classify_option hP ho]
      simp [hf]
    · cases h
  · rw [if_neg hf] at h
    split at h
    · cases h
    · rename_i hv
      rw [not_or] at hv
      rw [if_neg hv.1, List.cons_append, consume, classify_option hP ho]
      simp only [if_neg hf, List.cons_append, List.nil_append]
      rw [consume, if_pos (classify_value (by simpa using hv.2)), store_eq, h]
      rfl

theorem not_ambiguous (hP : WellFormed P) {p : Str × Val} (h : Understands P p) : ∀ a ∈ argOf p, classify P a ≠ .ambiguous := by
  obtain ⟨o, ho, hk, hx⟩ := h
  obtain ⟨k, v⟩ := p
  obtain rfl : o.name = k := hk
  intro a ha
  rw [argOf_eq] at ha
  rcases List.mem_cons.1 ha with rfl | ha
  · rw [classify_option hP ho]
    nofun
  · split at ha
    · cases ha
    · rename_i hv
      rw [List.mem_singleton.1 ha]
      unfold asked at hx
      dsimp only at hx
      split at hx
      · simp at hx
      · split at hx
        · cases hx
        · rename_i _ h
          rw [not_or] at h
          rw [classify_value (by simpa using h.2)]
          nofun

/-! ## The result -/

/-- The namespace after a dictionary that is understood. -/
def after (P : Parser) (d : PDict Str Val) (ns : Namespace) : Namespace :=
  d.foldl (fun ns p => (((find P p.1).bind fun o => asked o p.2).elim ns (ns.set p.1))) ns

theorem consume_dict (hP : WellFormed P) {d : PDict Str Val} (h : ∀ p ∈ d, Understands P p) (rest : List Str) (e : Bool) (ns : Namespace) :
    consume P (d.flatMap argOf ++ rest) none e ns = consume P rest none e (after P d ns) := by
  induction d generalizing ns with
  | nil => rfl
  | cons p d ih =>
    obtain ⟨o, ho, hk, hx⟩ := h p (by simp)
    obtain ⟨k, v⟩ := p
    obtain rfl : o.name = k := hk
    obtain ⟨x, hx⟩ := Option.isSome_iff_exists.1 hx
    rw [List.flatMap_cons, List.append_assoc, consume_entry hP ho hx, ih fun q hq => h q (by simp [hq])]
    congr 1
    show after P d _ = after P d _
    have e : ((find P o.name).bind fun o => asked o v) = some x := by rw [find_of_mem hP.1 ho]; exact hx
    simp [e]

theorem get?_after_ne {d : PDict Str Val} {k : Str} (hk : k ∉ PDict.keys d) (ns : Namespace) : PDict.get? (after P d ns) k = PDict.get? ns k := by
  induction d generalizing ns with
  | nil => rfl
  | cons p d ih =>
    rw [PDict.keys_cons, List.mem_cons, not_or] at hk
    show PDict.get? (after P d _) k = _
    rw [ih hk.2]
    dsimp only
    cases (find P p.1).bind fun o => asked o p.2 with
    | none => rfl
    | some x => exact (PDict.get?_set _ _ _ _).trans (if_neg (Ne.symm hk.1))

theorem get?_after {d : PDict Str Val} (hd : (PDict.keys d).Nodup) (h : ∀ p ∈ d, Understands P p) (hP : WellFormed P) (ns : Namespace) {o : Opt} (ho : o ∈ P) :
    PDict.get? (after P d ns) o.name = (PDict.get? d o.name).elim (PDict.get? ns o.name) (asked o) := by
  induction d generalizing ns with
  | nil => rfl
  | cons p d ih =>
    rw [PDict.keys_cons, List.nodup_cons] at hd
    have hd' := fun q hq => h q (List.mem_cons_of_mem p hq)
    obtain ⟨o', ho', hk, hx⟩ := h p (by simp)
    obtain ⟨k, v⟩ := p
    obtain rfl : o'.name = k := hk
    obtain ⟨x, hx⟩ := Option.isSome_iff_exists.1 hx
    show PDict.get? (after P d _) o.name = _
    rw [PDict.get?_cons]
    have e : ((find P o'.name).bind fun o => asked o v) = some x := by rw [find_of_mem hP.1 ho']; exact hx
    by_cases hk : o'.name = o.name
    · have hoo : o' = o := by
        have h1 := find_of_mem hP.1 ho'
        rw [hk, find_of_mem hP.1 ho] at h1
        exact (Option.some.inj h1).symm
      subst hoo
      rw [get?_after_ne hd.1, if_pos rfl]
      simp only [e, Option.elim_some]
      rw [PDict.get?_set, if_pos rfl]
      exact hx.symm
    · rw [ih hd.2 hd', if_neg hk]
      simp only [e, Option.elim_some]
      rw [PDict.get?_set, if_neg hk]

theorem get?_defaults (hP : (P.map Opt.name).Nodup) {o : Opt} (ho : o ∈ P) : PDict.get? (defaults P) o.name = some o.default := by
  unfold defaults
  induction P with
  | nil => cases ho
  | cons q P ih =>
    rw [List.map_cons, List.nodup_cons] at hP
    rw [List.map_cons, PDict.get?_cons]
    rcases List.mem_cons.1 ho with rfl | ho
    · simp
    · rw [if_neg fun e : q.name = o.name => hP.1 (e ▸ List.mem_map_of_mem ho)]
      exact ih hP.2 ho

theorem keys_after {d : PDict Str Val} (h : ∀ p ∈ d, p.1 ∈ PDict.keys ns) (ns' : Namespace) (hn : PDict.keys ns' = PDict.keys ns) : PDict.keys (after P d ns') = PDict.keys ns := by
  induction d generalizing ns' with
  | nil => exact hn
  | cons p d ih =>
    show PDict.keys (after P d _) = _
    refine ih (fun q hq => h q (by simp [hq])) _ ?_
    dsimp only
    cases (find P p.1).bind fun o => asked o p.2 with
    | none => exact hn
    | some x =>
      show PDict.keys (PDict.set ns' p.1 x) = _
      rw [PDict.keys_set, if_pos, hn]
      rw [hn]
      exact h p (by simp)

/-! ## Refusals -/

theorem consume_extras (l : List Str) : ∀ (o : Option Opt) (ns r : Namespace), consume P l o true ns ≠ .ok r := by
  induction l with
  | nil =>
    intro o ns r
    cases o <;> simp [consume]
  | cons a l ih =>
    intro o ns r
    cases o with
    | none =>
      rw [consume]
      split
      · exact ih _ _ _
      · exact ih _ _ _
      · nofun
      · nofun
      · split <;> exact ih _ _ _
      · split
        · nofun
        · exact ih _ _ _
    | some o =>
      rw [consume]
      split
      · split
        · nofun
        · exact ih _ _ _
      · nofun

theorem consume_sound (hP : WellFormed P) {d : PDict Str Val} (hk : ∀ p ∈ d, (∃ o ∈ P, o.name = p.1) ∨ Foreign P p.1) (hv : ∀ p ∈ d, p.2 ≠ .none → isValue p.2.str = true) {e : Bool}
    {ns r : Namespace} (h : consume P (d.flatMap argOf) none e ns = .ok r) : ∀ p ∈ d, Understands P p := by
  induction d generalizing ns with
  | nil => nofun
  | cons p d ih =>
    have ih' := fun ns h => ih (ns := ns) (fun q hq => hk q (by simp [hq])) (fun q hq => hv q (by simp [hq])) h
    rw [List.forall_mem_cons]
    rw [List.flatMap_cons] at h
    obtain ⟨k, v⟩ := p
    rw [argOf_eq] at h
    rcases hk (k, v) (by simp) with ⟨o, ho, hn⟩ | hf
    · obtain rfl : o.name = k := hn
      by_cases hu : (asked o v).isSome
      · refine ⟨⟨o, ho, rfl, hu⟩, ?_⟩
        obtain ⟨x, hx⟩ := Option.isSome_iff_exists.1 hu
        rw [← argOf_eq, consume_entry hP ho hx] at h
        exact ih' _ h
      · exfalso
        rw [List.cons_append, consume, classify_option hP ho] at h
        by_cases hfl : o.kind = .flag
        · simp only [if_pos hfl] at h
          by_cases hn : v = .none
          · exact hu (by simp [asked, hfl, hn])
          · rw [if_neg hn, List.cons_append, consume, classify_value (hv (o.name, v) (by simp) hn)] at h
            exact consume_extras _ _ _ _ h
        · simp only [if_neg hfl] at h
          by_cases hn : v = .none
          · rw [if_pos hn, List.nil_append] at h
            cases d with
            | nil => cases h
            | cons q d =>
              rw [List.flatMap_cons, show argOf q = argOf (q.1, q.2) from rfl, argOf_eq, List.cons_append, consume, if_neg] at h
              · cases h
              · rcases hk q (by simp) with ⟨o', ho', hq⟩ | hq
                · rw [← hq, classify_option hP ho']
                  nofun
                · rw [classify_foreign hq]
                  nofun
          · have hval := hv (o.name, v) (by simp) hn
            rw [if_neg hn, List.cons_append, List.nil_append, consume, if_pos (classify_value hval), store_eq] at h
            have : (convert o.kind v.str).filter (allowed o.choices) = none := by
              have := hu
              unfold asked at this
              rw [if_neg hfl, if_neg (by simp [hn, show isValue v.str = true from hval])] at this
              exact Option.not_isSome_iff_eq_none.1 this
            rw [this] at h
            cases h
    · exfalso
      rw [List.cons_append, consume, classify_foreign hf] at h
      exact consume_extras _ _ _ _ h

theorem consume_no_help {l : List Str} (h : ∀ a ∈ l, classify P a ≠ .help) : ∀ (o : Option Opt) (e : Bool) (ns : Namespace), consume P l o e ns ≠ .help := by
  induction l with
  | nil =>
    intro o e ns
    cases o <;> cases e <;> simp [consume]
  | cons a l ih =>
    have ih := ih fun b hb => h b (by simp [hb])
    have ha := h a (by simp)
    intro o e ns
    cases o with
    | none =>
      rw [consume]
      split
      · exact ih _ _ _
      · exact ih _ _ _
      · nofun
      · contradiction
      · split <;> exact ih _ _ _
      · split
        · nofun
        · exact ih _ _ _
    | some o =>
      rw [consume]
      split
      · split
        · nofun
        · exact ih _ _ _
      · nofun

/-! ## Types -/

/-- Every option has a value of its type. -/
def Good (P : Parser) (ns : Namespace) : Prop := PDict.keys ns = P.map Opt.name ∧ ∀ o ∈ P, ∃ v, PDict.get? ns o.name = some v ∧ Typed o v

theorem good_set (hP : WellFormed P) {ns : Namespace} (h : Good P ns) {o : Opt} (ho : o ∈ P) {v : Value} (hv : Typed o v) : Good P (ns.set o.name v) := by
  refine ⟨?_, fun o' ho' => ?_⟩
  · rw [PDict.keys_set, if_pos, h.1]
    rw [h.1]
    exact List.mem_map_of_mem ho
  · rw [PDict.get?_set]
    by_cases e : o.name = o'.name
    · have h1 := find_of_mem hP.1 ho
      rw [e, find_of_mem hP.1 ho'] at h1
      obtain rfl := Option.some.inj h1
      exact ⟨v, by simp, hv⟩
    · rw [if_neg e]
      exact h.2 o' ho'

theorem typed_of_store {o : Opt} {s : Str} {ns ns' : Namespace} (h : store o s ns = some ns') : ∃ v, Typed o v ∧ ns' = ns.set o.name v := by
  obtain ⟨n, k, c, d⟩ := o
  rw [store_eq] at h
  cases k with
  | flag => cases h
  | int =>
    cases hr : readInt s with
    | none => simp [convert, hr] at h
    | some i =>
      simp only [convert, hr, Option.map_some] at h
      obtain ⟨v, hv, rfl⟩ := Option.map_eq_some_iff.1 h
      obtain ⟨h1, _⟩ := Option.filter_eq_some_iff.1 hv
      obtain rfl := Option.some.inj h1
      exact ⟨_, (by unfold Typed; trivial), rfl⟩
  | float =>
    cases hr : readFloat s with
    | none => simp [convert, hr] at h
    | some i =>
      simp only [convert, hr, Option.map_some] at h
      obtain ⟨v, hv, rfl⟩ := Option.map_eq_some_iff.1 h
      obtain ⟨h1, _⟩ := Option.filter_eq_some_iff.1 hv
      obtain rfl := Option.some.inj h1
      exact ⟨_, (by unfold Typed; trivial), rfl⟩
  | str =>
    simp only [convert] at h
    obtain ⟨v, hv, rfl⟩ := Option.map_eq_some_iff.1 h
    obtain ⟨h1, h2⟩ := Option.filter_eq_some_iff.1 hv
    obtain rfl := Option.some.inj h1
    refine ⟨_, ?_, rfl⟩
    intro l hl
    simp only [Option.mem_def] at hl
    subst hl
    simpa [allowed] using h2

theorem abbreviated_mem {n : Str} {e e' : Option Str} {o : Opt} (h : abbreviated P n e = .option o e') : o ∈ P := by
  unfold abbreviated at h
  split at h
  · cases h
  · rename_i o' hc
    obtain ⟨rfl, _⟩ := Arg.option.inj h
    have : some o' ∈ completions P n := by rw [hc]; simp
    unfold completions at this
    rw [List.mem_append] at this
    rcases this with h | h
    · split at h <;> simp at h
    · simp at h
      exact h.1
  · split at h <;> cases h
  · cases h

theorem classify_mem {a : Str} {o : Opt} {e : Option Str} (h : classify P a = .option o e) : o ∈ P := by
  have ho : ∀ s, otherwise s ≠ .option o e := by
    intro s h
    unfold otherwise at h
    split at h <;> cases h
  have hl : ∀ n, longOption P n = .option o e → o ∈ P := by
    intro n h
    unfold longOption at h
    split at h
    · cases h
    · split at h
      · cases h
      · split at h
        · rename_i hf
          obtain ⟨rfl, _⟩ := Arg.option.inj h
          exact (find_some hf).1
        · split at h
          · split at h
            · cases h
            · split at h
              · rename_i hf
                obtain ⟨rfl, _⟩ := Arg.option.inj h
                exact (find_some hf).1
              · split at h
                · exact absurd h (ho _)
                · exact abbreviated_mem h
          · split at h
            · exact absurd h (ho _)
            · exact abbreviated_mem h
  unfold classify at h
  split at h
  · cases h
  · exact hl _ h
  · cases h
  · cases h
  · exact absurd h (ho _)
  · cases h

theorem good_consume (hP : WellFormed P) {l : List Str} : ∀ {o : Option Opt} {e : Bool} {ns r : Namespace}, (∀ q ∈ o, q ∈ P) → Good P ns → consume P l o e ns = .ok r → Good P r := by
  induction l with
  | nil =>
    intro o e ns r _ hg h
    cases o with
    | none =>
      rw [consume] at h
      split at h
      · cases h
      · obtain rfl := Exit.ok.inj h
        exact hg
    | some o => cases h
  | cons a l ih =>
    intro o e ns r ho hg h
    cases o with
    | none =>
      rw [consume] at h
      split at h
      · exact ih (o := none) (by simp) hg h
      · exact ih (o := none) (by simp) hg h
      · cases h
      · cases h
      · rename_i q hq
        have hm := classify_mem hq
        split at h
        · rename_i hf
          refine ih (o := none) (by simp) (good_set hP hg hm ?_) h
          unfold Typed
          rw [hf]
          trivial
        · exact ih (by rintro _ ⟨⟩; exact hm) hg h
      · rename_i q e' hq
        have hm := classify_mem hq
        split at h
        · cases h
        · rename_i hs
          obtain ⟨v, hv, rfl⟩ := typed_of_store hs
          exact ih (o := none) (by simp) (good_set hP hg hm hv) h
    | some o =>
      have hm := ho o rfl
      rw [consume] at h
      split at h
      · split at h
        · cases h
        · rename_i hs
          obtain ⟨v, hv, rfl⟩ := typed_of_store hs
          exact ih (o := none) (by simp) (good_set hP hg hm hv) h
      · cases h

theorem good_defaults (hP : Sound P) : Good P (defaults P) :=
  ⟨by unfold defaults PDict.keys; rw [List.map_map]; rfl, fun o ho => ⟨o.default, get?_defaults hP.1.1 ho, (hP.2 o ho).1⟩⟩

theorem good_parse (hP : Sound P) {argv : List Str} {ns : Namespace} (h : parse P argv = .ok ns) : Good P ns := by
  unfold parse at h
  split at h
  · cases h
  · exact good_consume hP.1 (o := none) (by simp) (good_defaults hP) h

/-! ## Numbers -/

theorem digitValue_digit {d : Nat} (h : d < 10) : digitValue (digit d) = some d := by
  have : ∀ d : Fin 10, digitValue (digit d) = some d.1 := by decide
  exact this ⟨d, h⟩

theorem takeDigits_append {n : Nat} (acc : Nat) (s : Str) : takeDigits acc (decimal n ++ s) =
    let r := takeDigits (acc * 10 ^ (decimal n).length + n) s
    ((decimal n).length + r.1, r.2) := by
  induction n using decimal.induct generalizing acc s with
  | case1 n h =>
    rw [decimal, if_pos h]
    simp [takeDigits, digitValue_digit h, Nat.mul_comm, Nat.add_comm]
  | case2 n h ih =>
    rw [decimal, if_neg h, List.append_assoc, ih]
    have hd : n % 10 < 10 := Nat.mod_lt _ (by decide)
    simp only [List.cons_append, List.nil_append, takeDigits, digitValue_digit hd, List.length_append, List.length_cons, List.length_nil]
    have e : 10 * (acc * 10 ^ (decimal (n / 10)).length + n / 10) + n % 10 = acc * 10 ^ ((decimal (n / 10)).length + (0 + 1)) + n := by
      rw [Nat.zero_add, Nat.pow_succ, Nat.mul_add, Nat.add_assoc, Nat.div_add_mod, ← Nat.mul_assoc, Nat.mul_comm 10, Nat.mul_assoc, Nat.mul_comm 10]
    rw [e]
    refine Prod.ext ?_ rfl
    simp only
    omega

theorem takeDigits_decimal (n : Nat) : takeDigits 0 (decimal n) = ((decimal n).length, n, []) := by
  have := takeDigits_append (n := n) 0 []
  rw [List.append_nil] at this
  rw [this]
  simp [takeDigits]

theorem length_decimal (n : Nat) : ∃ m, (decimal n).length = m + 1 :=
  ⟨(decimal n).length - 1, by have := List.length_pos_iff.2 (Shell.decimal_ne_nil n); omega⟩

theorem takeSign_decimal (n : Nat) : takeSign (decimal n) = (false, decimal n) := by
  have hd : ∀ c ∈ decimal n, c ≠ '-' ∧ c ≠ '+' := by
    induction n using decimal.induct with
    | case1 n h =>
      rw [decimal, if_pos h]
      have : ∀ d : Fin 10, digit d ≠ '-' ∧ digit d ≠ '+' := by decide
      simpa using this ⟨n, h⟩
    | case2 n h ih =>
      rw [decimal, if_neg h]
      have : ∀ d : Fin 10, digit d ≠ '-' ∧ digit d ≠ '+' := by decide
      have := this ⟨n % 10, Nat.mod_lt _ (by decide)⟩
      intro c hc
      rcases List.mem_append.1 hc with hc | hc
      · exact ih c hc
      · rw [List.mem_singleton.1 hc]
        exact this
  generalize decimal n = s at hd
  match s with
  | [] => rfl
  | c :: s =>
    obtain ⟨h1, h2⟩ := hd c (by simp)
    unfold takeSign
    split <;> simp_all

theorem isValue_decimal (n : Nat) : isValue (decimal n) = true := by
  have h := takeSign_decimal n
  unfold isValue
  rw [Bool.or_eq_true, decide_eq_true_eq]
  left
  intro e
  generalize decimal n = s at h e
  match s with
  | [] => cases e
  | c :: s =>
    obtain rfl := Option.some.inj e
    exact absurd (congrArg Prod.fst h) (by simp [takeSign])

theorem readInt_decimal (n : Nat) : readInt (decimal n) = some (n : Int) := by
  obtain ⟨m, hm⟩ := length_decimal n
  unfold readInt
  simp [takeSign_decimal, takeDigits_decimal, hm]

theorem readInt_negative (n : Nat) : readInt ('-' :: decimal n) = some (-(n : Int)) := by
  obtain ⟨m, hm⟩ := length_decimal n
  unfold readInt
  simp [takeSign, takeDigits_decimal, hm]

theorem isValue_negative (n : Nat) : isValue ('-' :: decimal n) = true := by
  obtain ⟨m, hm⟩ := length_decimal n
  unfold isValue negative
  simp [takeDigits_decimal, hm]

theorem readFloat_decimal (n : Nat) : readFloat (decimal n) = some (n : Rat) := by
  obtain ⟨m, hm⟩ := length_decimal n
  unfold readFloat
  simp [takeSign_decimal, takeDigits_decimal, hm, readFraction, readExponent, Rat.zpow_zero]

theorem readFloat_negative (n : Nat) : readFloat ('-' :: decimal n) = some (-(n : Rat)) := by
  obtain ⟨m, hm⟩ := length_decimal n
  unfold readFloat
  simp [takeSign, takeDigits_decimal, hm, readFraction, readExponent, Rat.zpow_zero, Rat.neg_mul]

/-! ## The same argument twice -/

theorem consume_congr {a b : Str} (h : classify P a = classify P b) (hn : classify P a ≠ .value) (post : List Str) : ∀ (pre : List Str) (o : Option Opt) (e : Bool) (ns : Namespace),
    consume P (pre ++ a :: post) o e ns = consume P (pre ++ b :: post) o e ns := by
  intro pre
  induction pre with
  | nil =>
    intro o e ns
    cases o with
    | none => rw [List.nil_append, List.nil_append, consume, consume, h]
    | some o => rw [List.nil_append, List.nil_append, consume, consume, if_neg hn, if_neg (h ▸ hn)]
  | cons c pre ih =>
    intro o e ns
    cases o with
    | none => simp only [List.cons_append, consume, ih]
    | some o => simp only [List.cons_append, consume, ih]

end Verif.Options
