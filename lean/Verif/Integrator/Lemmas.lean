import Verif.Integrator.Spec
import Mathlib.Tactic.Linarith
import Mathlib.Tactic.FieldSimp
import Mathlib.Tactic.Positivity

namespace Verif.Integrator
open Verif

section order
variable {T X : Type _} [LinearOrder T]

theorem endsWith_cons {x e : T} {ts : List T} :
    EndsWith (x :: ts) e ↔ (x = e ∧ ts = []) ∨ (x < e ∧ EndsWith ts e) := by
  constructor
  · rintro ⟨init, h, hlt⟩
    cases init with
    | nil =>
      simp only [List.nil_append, List.cons.injEq] at h
      exact Or.inl h
    | cons y init =>
      simp only [List.cons_append, List.cons.injEq] at h
      obtain ⟨rfl, rfl⟩ := h
      exact Or.inr ⟨hlt _ (by simp), init, rfl, fun z hz => hlt z (by simp [hz])⟩
  · rintro (⟨rfl, rfl⟩ | ⟨h, init, rfl, hlt⟩)
    · exact ⟨[], rfl, by simp⟩
    · refine ⟨x :: init, rfl, ?_⟩
      intro z hz
      simp only [List.mem_cons] at hz
      rcases hz with rfl | hz
      · exact h
      · exact hlt z hz

theorem EndsWith.le {e : T} {ts : List T} (h : EndsWith ts e) : ∀ x ∈ ts, x ≤ e := by
  obtain ⟨init, rfl, hlt⟩ := h
  intro x hx
  simp only [List.mem_append, List.mem_singleton] at hx
  rcases hx with hx | rfl
  · exact le_of_lt (hlt x hx)
  · exact le_refl _

theorem EndsWith.ne_nil {e : T} {ts : List T} (h : EndsWith ts e) : ts ≠ [] := by
  obtain ⟨init, rfl, -⟩ := h; simp

theorem endsWith_of_pairwise {ts : List T} (h : ts.Pairwise (· < ·)) (hne : ts ≠ []) :
    EndsWith ts (ts.getLast hne) := by
  refine ⟨ts.dropLast, (List.dropLast_append_getLast hne).symm, ?_⟩
  intro x hx
  rw [← List.dropLast_append_getLast hne, List.pairwise_append] at h
  exact h.2.2 x hx _ (by simp)

/-- The entries of `xs` whose flag is set. -/
def masked {Y : Type _} (xs : List Y) (fl : List Bool) : List Y :=
  ((xs.zip fl).filter (fun p => p.2)).map (fun p => p.1)

theorem masked_append {Y : Type _} {xs ys : List Y} {fl gl : List Bool} (h : xs.length = fl.length) :
    masked (xs ++ ys) (fl ++ gl) = masked xs fl ++ masked ys gl := by
  simp [masked, List.zip_append h]

theorem masked_map {Y Z : Type _} (f : Y → Z) (xs : List Y) (fl : List Bool) :
    masked (xs.map f) fl = (masked xs fl).map f := by
  induction xs generalizing fl with
  | nil => simp [masked]
  | cons x xs ih =>
    cases fl with
    | nil => simp [masked]
    | cons b fl =>
      have := ih fl
      unfold masked at this ⊢
      cases b <;> simp [this]

omit [LinearOrder T] in
theorem outputs_cons (iv : Interval T) (ivs : List (Interval T)) :
    outputs (iv :: ivs) = masked iv.1 iv.2 ++ outputs ivs := by
  simp [outputs, masked]

theorem outputs_mergeLoop (cur : List T) (fl : List Bool) (ts cs : List T) (e : T)
    (hlen : cur.length = fl.length) (ht : EndsWith ts e) (hc : EndsWith cs e) :
    outputs (mergeLoop cur fl ts cs) = masked cur fl ++ ts ∧
      ∀ iv ∈ mergeLoop cur fl ts cs, iv.1.length = iv.2.length := by
  fun_induction mergeLoop cur fl ts cs with
  | case1 => exact absurd rfl ht.ne_nil
  | case2 => exact absurd rfl hc.ne_nil
  | case3 cur fl x ts c cs hlt ih =>
    have hxe : x < e := lt_of_lt_of_le hlt (hc.le c (by simp))
    rcases endsWith_cons.1 ht with ⟨rfl, -⟩ | ⟨-, ht'⟩
    · exact absurd hxe (lt_irrefl _)
    · obtain ⟨h1, h2⟩ := ih (by simp [hlen]) ht' hc
      refine ⟨?_, h2⟩
      rw [h1, masked_append hlen]
      simp [masked]
  | case4 cur fl x ts c cs hnlt hlt ih =>
    have hce : c < e := lt_of_lt_of_le hlt (ht.le x (by simp))
    rcases endsWith_cons.1 hc with ⟨rfl, -⟩ | ⟨-, hc'⟩
    · exact absurd hce (lt_irrefl _)
    · obtain ⟨h1, h2⟩ := ih rfl ht hc'
      refine ⟨?_, ?_⟩
      · rw [outputs_cons, h1, masked_append hlen]
        simp [masked]
      · intro iv hiv
        simp only [List.mem_cons] at hiv
        rcases hiv with rfl | hiv
        · simp [hlen]
        · exact h2 iv hiv
  | case5 cur fl x ts c cs hnlt hnlt' ih =>
    have hxc : x = c := le_antisymm (not_lt.1 hnlt') (not_lt.1 hnlt)
    subst hxc
    have hstep : outputs (mergeLoop [x] [false] ts cs) = ts ∧
        ∀ iv ∈ mergeLoop [x] [false] ts cs, iv.1.length = iv.2.length := by
      rcases endsWith_cons.1 ht with ⟨rfl, rfl⟩ | ⟨hxe, ht'⟩
      · simp [mergeLoop, outputs]
      · rcases endsWith_cons.1 hc with ⟨rfl, -⟩ | ⟨-, hc'⟩
        · exact absurd hxe (lt_irrefl _)
        · obtain ⟨h1, h2⟩ := ih rfl ht' hc'
          refine ⟨?_, h2⟩
          rw [h1]
          simp [masked]
    refine ⟨?_, ?_⟩
    · rw [outputs_cons, hstep.1, masked_append hlen]
      simp [masked]
    · intro iv hiv
      simp only [List.mem_cons] at hiv
      rcases hiv with rfl | hiv
      · simp [hlen]
      · exact hstep.2 iv hiv

theorem chain_mergeLoop (cur : List T) (fl : List Bool) (ts cs : List T) (e a : T)
    (ht : EndsWith ts e) (hc : EndsWith cs e)
    (hcur : cur.Pairwise (· < ·)) (ha : cur.head? = some a)
    (hts : ts.Pairwise (· < ·)) (hcs : cs.Pairwise (· < ·))
    (hct : ∀ x ∈ cur, ∀ y ∈ ts, x < y) (hcc : ∀ x ∈ cur, ∀ y ∈ cs, x < y) :
    ChainFrom a e (mergeLoop cur fl ts cs) ∧
      (mergeLoop cur fl ts cs).map (fun iv => iv.1.getLast?) = cs.map some ∧
      ∀ iv ∈ mergeLoop cur fl ts cs, iv.1.Pairwise (· < ·) ∧ 2 ≤ iv.1.length := by
  have happ : ∀ (cur : List T) (y : T), cur.Pairwise (· < ·) → (∀ x ∈ cur, x < y) →
      (cur ++ [y]).Pairwise (· < ·) := by
    intro cur y h1 h2
    rw [List.pairwise_append]
    exact ⟨h1, by simp, by simpa using h2⟩
  have hhead : ∀ (cur : List T) (y a : T), cur.head? = some a → (cur ++ [y]).head? = some a := by
    intro cur y a h
    cases cur with
    | nil => cases h
    | cons z cur => simpa using h
  have hlen2 : ∀ (cur : List T) (y a : T), cur.head? = some a → 2 ≤ (cur ++ [y]).length := by
    intro cur y a h
    cases cur with
    | nil => cases h
    | cons z cur => simp
  fun_induction mergeLoop cur fl ts cs generalizing a with
  | case1 => exact absurd rfl ht.ne_nil
  | case2 => exact absurd rfl hc.ne_nil
  | case3 cur fl x ts c cs hlt ih =>
    have hxe : x < e := lt_of_lt_of_le hlt (hc.le c (by simp))
    rcases endsWith_cons.1 ht with ⟨rfl, -⟩ | ⟨-, ht'⟩
    · exact absurd hxe (lt_irrefl _)
    · have hts' := List.pairwise_cons.1 hts
      have hcs' := List.pairwise_cons.1 hcs
      refine ih a ht' hc (happ _ _ hcur (fun y hy => hct y hy x (by simp))) (hhead _ _ _ ha) hts'.2 hcs
        ?_ ?_
      · intro z hz y hy
        simp only [List.mem_append, List.mem_singleton] at hz
        rcases hz with hz | rfl
        · exact hct z hz y (by simp [hy])
        · exact hts'.1 y hy
      · intro z hz y hy
        simp only [List.mem_append, List.mem_singleton] at hz
        rcases hz with hz | rfl
        · exact hcc z hz y hy
        · simp only [List.mem_cons] at hy
          rcases hy with rfl | hy
          · exact hlt
          · exact lt_trans hlt (hcs'.1 y hy)
  | case4 cur fl x ts c cs hnlt hlt ih =>
    have hce : c < e := lt_of_lt_of_le hlt (ht.le x (by simp))
    rcases endsWith_cons.1 hc with ⟨rfl, -⟩ | ⟨-, hc'⟩
    · exact absurd hce (lt_irrefl _)
    · have hts' := List.pairwise_cons.1 hts
      have hcs' := List.pairwise_cons.1 hcs
      obtain ⟨h1, h2, h3⟩ := ih c ht hc' (by simp) rfl hts hcs'.2
        (by
          intro z hz y hy
          simp only [List.mem_singleton] at hz
          subst hz
          simp only [List.mem_cons] at hy
          rcases hy with rfl | hy
          · exact hlt
          · exact lt_trans hlt (hts'.1 y hy))
        (by
          intro z hz y hy
          simp only [List.mem_singleton] at hz
          subst hz
          exact hcs'.1 y hy)
      refine ⟨⟨c, hhead _ _ _ ha, by simp, h1⟩, ?_, ?_⟩
      · rw [List.map_cons, h2]; simp
      · intro iv hiv
        simp only [List.mem_cons] at hiv
        rcases hiv with rfl | hiv
        · exact ⟨happ _ _ hcur (fun y hy => hcc y hy c (by simp)), hlen2 _ _ _ ha⟩
        · exact h3 iv hiv
  | case5 cur fl x ts c cs hnlt hnlt' ih =>
    have hxc : x = c := le_antisymm (not_lt.1 hnlt') (not_lt.1 hnlt)
    subst hxc
    have hts' := List.pairwise_cons.1 hts
    have hcs' := List.pairwise_cons.1 hcs
    have hstep : ChainFrom x e (mergeLoop [x] [false] ts cs) ∧
        (mergeLoop [x] [false] ts cs).map (fun iv => iv.1.getLast?) = cs.map some ∧
        ∀ iv ∈ mergeLoop [x] [false] ts cs, iv.1.Pairwise (· < ·) ∧ 2 ≤ iv.1.length := by
      rcases endsWith_cons.1 ht with ⟨rfl, rfl⟩ | ⟨hxe, ht'⟩
      · rcases endsWith_cons.1 hc with ⟨-, rfl⟩ | ⟨hlt, -⟩
        · simp [mergeLoop, ChainFrom]
        · exact absurd hlt (lt_irrefl _)
      · rcases endsWith_cons.1 hc with ⟨rfl, -⟩ | ⟨-, hc'⟩
        · exact absurd hxe (lt_irrefl _)
        · exact ih x ht' hc' (by simp) rfl hts'.2 hcs'.2
            (by simpa using hts'.1) (by simpa using hcs'.1)
    obtain ⟨h1, h2, h3⟩ := hstep
    refine ⟨⟨x, hhead _ _ _ ha, by simp, h1⟩, ?_, ?_⟩
    · rw [List.map_cons, h2]; simp
    · intro iv hiv
      simp only [List.mem_cons] at hiv
      rcases hiv with rfl | hiv
      · exact ⟨happ _ _ hcur (fun y hy => hcc y hy x (by simp)), hlen2 _ _ _ ha⟩
      · exact h3 iv hiv

/-- In a chain of increasing intervals all times are at or after the start. -/
theorem chain_le {a b : T} {ivs : List (Interval T)} (h : ChainFrom a b ivs)
    (hp : ∀ iv ∈ ivs, iv.1.Pairwise (· < ·)) : ∀ iv ∈ ivs, ∀ t ∈ iv.1, a ≤ t := by
  have hge : ∀ (l : List T) (a : T), l.Pairwise (· < ·) → l.head? = some a → ∀ t ∈ l, a ≤ t := by
    intro l a hl hh t ht
    cases l with
    | nil => cases hh
    | cons y l =>
      simp only [List.head?_cons, Option.some.injEq] at hh
      subst hh
      simp only [List.mem_cons] at ht
      rcases ht with rfl | ht
      · exact le_refl _
      · exact le_of_lt ((List.pairwise_cons.1 hl).1 t ht)
  induction ivs generalizing a with
  | nil => intro iv hiv; cases hiv
  | cons iv ivs ih =>
    obtain ⟨e, h1, h2, h3⟩ := h
    simp only [List.mem_cons, forall_eq_or_imp] at hp ⊢
    have hae : a ≤ e := hge iv.1 a hp.1 h1 e (List.mem_of_getLast? h2)
    exact ⟨hge iv.1 a hp.1 h1, fun iv' hiv' t ht => le_trans hae (ih h3 hp.2 iv' hiv' t ht)⟩

theorem maskRows_eq {rows : List X} {fl : List Bool} (h : rows.length = fl.length) :
    maskRows rows fl = .ok (masked rows fl) := by
  simp [maskRows, h, masked]

theorem runIntervals_flow (φ : T → T → X → X) (hφ : IsFlow φ) (solve : Solver X T)
    (hs : SolvesFlow φ solve) (ivs : List (Interval T)) (a b : T) (h : ChainFrom a b ivs)
    (hp : ∀ iv ∈ ivs, iv.1.Pairwise (· < ·)) (hl : ∀ iv ∈ ivs, iv.1.length = iv.2.length)
    (x : X) (out : Option (List X)) :
    ivs.foldlM (checkpointStep solve) (x, out) = .ok (φ a b x,
      if ivs = [] then out else some (out.getD [] ++ (outputs ivs).map (fun t => φ a t x))) := by
  induction ivs generalizing a x out with
  | nil =>
    have hab : a = b := h
    subst hab
    simp [pure, Except.pure, hφ.self]
  | cons iv ivs ih =>
    have hle := chain_le h hp
    obtain ⟨e, h1, h2, h3⟩ := h
    simp only [List.mem_cons, forall_eq_or_imp] at hp hl hle
    obtain ⟨ts, hts⟩ : ∃ ts, iv.1 = a :: ts := by
      cases hiv : iv.1 with
      | nil => rw [hiv] at h1; cases h1
      | cons y ts =>
        rw [hiv] at h1
        simp only [List.head?_cons, Option.some.injEq] at h1
        exact ⟨ts, by rw [h1]⟩
    have hsol : solve x iv.1 = .ok (iv.1.map (fun t => φ a t x)) := by
      have := hs x a ts (fun t ht => hle.1 t (by rw [hts]; simp [ht]))
      rw [hts]; exact this
    have hlast : (iv.1.map (fun t => φ a t x)).getLast? = some (φ a e x) := by
      rw [List.getLast?_map, h2]; rfl
    have hstep : checkpointStep solve (x, out) iv = .ok (φ a e x,
        some (out.getD [] ++ (masked iv.1 iv.2).map (fun t => φ a t x))) := by
      unfold checkpointStep
      rw [hsol]
      have hmr := maskRows_eq (rows := iv.1.map (fun t => φ a t x)) (fl := iv.2) (by simpa using hl.1)
      simp only [bind, Except.bind, hlast, hmr, masked_map]
      cases out <;> simp
    rw [List.foldlM_cons, hstep]
    change (List.foldlM _ _ ivs : Py _) = _
    rw [ih e h3 hp.2 hl.2]
    have hae : a ≤ e := hle.1 e (List.mem_of_getLast? h2)
    have heb : e ≤ b := by
      clear ih hstep hlast hsol hts h1 h2 hae hle hl
      induction ivs generalizing e with
      | nil => exact le_of_eq h3
      | cons iv' ivs ih' =>
        have hc := chain_le h3 hp.2
        obtain ⟨e', h1', h2', h3'⟩ := h3
        simp only [List.mem_cons, forall_eq_or_imp] at hp hc
        exact le_trans (hc.1 e' (List.mem_of_getLast? h2')) (ih' e' h3' ⟨hp.1, hp.2.2⟩)
    have hout : (outputs ivs).map (fun t => φ e t (φ a e x)) = (outputs ivs).map (fun t => φ a t x) := by
      apply List.map_congr_left
      intro t ht
      obtain ⟨iv', hiv', ht'⟩ := List.mem_flatMap.1 ht
      obtain ⟨p, hpm, rfl⟩ := List.mem_map.1 ht'
      have hpt : p.1 ∈ iv'.1 := (List.of_mem_zip (List.mem_filter.1 hpm).1).1
      exact hφ.comp a e p.1 x hae (chain_le h3 hp.2 iv' hiv' p.1 hpt)
    rw [hφ.comp a e b x hae heb, outputs_cons, List.map_append, hout]
    by_cases hnil : ivs = []
    · subst hnil; simp [outputs]
    · simp [hnil]

end order

/-! ## Checkpoint times -/

/-- Checkpoints `a = f 0 < f 1 < ... < f (m-1) < b`. -/
theorem points_spec (a b : ℚ) (m : Nat) (f : Nat → ℚ) (h0 : f 0 = a) (hm : 0 < m)
    (hf : ∀ i j, i < j → f i < f j) (hb : ∀ i, i < m → f i < b) :
    ∃ cs, (List.range m).map f ++ [b] = a :: cs ∧ cs ≠ [] ∧ (a :: cs).Pairwise (· < ·) ∧
      cs.getLast? = some b := by
  obtain ⟨m, rfl⟩ : ∃ k, m = k + 1 := ⟨m - 1, by omega⟩
  refine ⟨(List.range m).map (fun i => f (i + 1)) ++ [b], ?_, by simp, ?_, by simp⟩
  · rw [List.range_succ_eq_map]
    simp [h0, Function.comp_def]
  · have : a :: ((List.range m).map (fun i => f (i + 1)) ++ [b]) = (List.range (m + 1)).map f ++ [b] := by
      rw [List.range_succ_eq_map]; simp [h0, Function.comp_def]
    rw [this, List.pairwise_append]
    refine ⟨?_, by simp, ?_⟩
    · rw [List.pairwise_map]
      exact List.Pairwise.imp (fun {i j} h => hf i j h) List.pairwise_lt_range
    · intro x hx y hy
      simp only [List.mem_map, List.mem_range] at hx
      obtain ⟨i, hi, rfl⟩ := hx
      simp only [List.mem_singleton] at hy
      subst hy
      exact hb i hi

theorem checkpointTimes_nr (a b : ℚ) (hab : a < b) (n : Int) (hn : 0 ≤ n) :
    ∃ cs, checkpointTimes a b (some n) none = .ok (a :: cs) ∧ cs ≠ [] ∧ (a :: cs).Pairwise (· < ·) ∧
      cs.getLast? = some b ∧ cs.length = n.toNat + 1 := by
  obtain ⟨n, rfl⟩ := Int.eq_ofNat_of_zero_le hn
  have hN : ((n : Int) + 2).toNat = n + 2 := by omega
  have hpos : (0 : ℚ) < (n : ℚ) + 1 := by positivity
  have hden : (((n + 2 : Nat) : ℚ) - 1) = (n : ℚ) + 1 := by push_cast; ring
  obtain ⟨cs, h1, h2, h3, h4⟩ := points_spec a b (n + 1) (fun (i : Nat) => a + (b - a) * i / (((n + 2 : Nat) : ℚ) - 1))
    (by simp) (by omega)
    (by
      intro i j hij
      rw [hden]
      have : (i : ℚ) < j := by exact_mod_cast hij
      have h := mul_lt_mul_of_pos_left this (sub_pos.2 hab)
      have := (div_lt_div_iff_of_pos_right hpos).2 h
      linarith)
    (by
      intro i hi
      rw [hden]
      have hi' : (i : ℚ) < (n : ℚ) + 1 := by exact_mod_cast hi
      have h := mul_lt_mul_of_pos_left hi' (sub_pos.2 hab)
      have h2 : (b - a) * (i : ℚ) / ((n : ℚ) + 1) < b - a := by
        rw [div_lt_iff₀ hpos]; exact h
      linarith)
  refine ⟨cs, ?_, h2, h3, h4, ?_⟩
  · have hlt : ¬ ((n : Int) + 2 < 0) := by omega
    have hne : linspace a b (n + 2) ≠ [] := by
      have : (linspace a b (n + 2)).length = n + 2 := by
        unfold linspace; rw [if_neg (by omega)]; simp
      intro h; rw [h] at this; simp at this
    have hdrop : (linspace a b (n + 2)).dropLast
        = (List.range (n + 1)).map (fun (i : Nat) => a + (b - a) * i / (((n + 2 : Nat) : ℚ) - 1)) := by
      unfold linspace
      rw [if_neg (by omega), List.range_succ, List.map_append]
      simp
    simp only [checkpointTimes]
    change (if (n : Int) + 2 < 0 then _ else forceLast (linspace a b ((n : Int) + 2).toNat) b) = _
    rw [if_neg hlt, hN, forceLast, if_neg hne, hdrop, h1]
  · have := congrArg List.length h1
    simp at this
    simp
    omega

theorem checkpointTimes_interval (a b : ℚ) (hab : a < b) (s : ℚ) (hs : 0 < s) :
    ∃ cs, checkpointTimes a b none (some s) = .ok (a :: cs) ∧ cs ≠ [] ∧ (a :: cs).Pairwise (· < ·) ∧
      cs.getLast? = some b := by
  have hq : 0 < (b - a) / s := div_pos (sub_pos.2 hab) hs
  have hceil : 0 < ⌈(b - a) / s⌉ := Int.ceil_pos.2 hq
  set m := ⌈(b - a) / s⌉.toNat with hm
  have hmpos : 0 < m := by omega
  have hfb : ∀ i, i < m → a + s * (i : ℚ) < b := by
    intro i hi
    have : (i : Int) < ⌈(b - a) / s⌉ := by omega
    have h := Int.lt_ceil.1 this
    rw [lt_div_iff₀ hs] at h
    push_cast at h
    linarith
  obtain ⟨cs, h1, h2, h3, h4⟩ := points_spec a b m (fun (i : Nat) => a + s * i) (by simp) hmpos
    (by
      intro i j hij
      have : (i : ℚ) < j := by exact_mod_cast hij
      have h := mul_lt_mul_of_pos_left this hs
      linarith) hfb
  refine ⟨cs, ?_, h2, h3, h4⟩
  have har : arange a b s = .ok ((List.range m).map (fun (i : Nat) => a + s * (i : ℚ))) := by
    unfold arange
    rw [if_neg hs.ne', if_neg]
    rintro (⟨-, h⟩ | ⟨h, -⟩)
    · exact absurd hab (not_lt.2 h.le)
    · exact absurd hs (not_lt.2 h.le)
  obtain ⟨m', hm'⟩ : ∃ k, m = k + 1 := ⟨m - 1, by omega⟩
  have hlast : ((List.range m).map (fun (i : Nat) => a + s * (i : ℚ))).getLast? = some (a + s * (m' : ℚ)) := by
    rw [hm', List.range_succ]; simp
  have hap : arangePoints a b s = .ok ((List.range m).map (fun (i : Nat) => a + s * (i : ℚ)) ++ [b]) := by
    unfold arangePoints
    rw [har]
    simp only [bind, Except.bind, hlast]
    rw [if_pos (ne_of_lt (hfb m' (by omega)))]
  simp only [checkpointTimes, hap, bind, Except.bind, forceLast]
  rw [if_neg (by simp), List.dropLast_concat, h1]

end Verif.Integrator
