import Verif.Converge.Model
import Verif.Converge.Lemmas

/-!
# What a fixed-grid solver computes
-/

namespace Verif.Converge
open Verif Verif.Flow Verif.Evolution Verif.Whole

variable {ι β K K' : Type}

/-- The coordinates of a system. -/
abbrev Coord (ι β K K' : Type) := (ι × K) ⊕ (ι × K) ⊕ (β × K')

def co (z : Sys2 ι β K K') : Coord ι β K K' → ℝ
  | .inl k => z.1 k
  | .inr (.inl k) => z.2.1 k
  | .inr (.inr k) => z.2.2 k

theorem co_ext {z z' : Sys2 ι β K K'} (h : ∀ j, co z j = co z' j) : z = z' :=
  Prod.ext (funext fun k => h (.inl k)) (Prod.ext (funext fun k => h (.inr (.inl k))) (funext fun k => h (.inr (.inr k))))

theorem co_add (z z' : Sys2 ι β K K') (j) : co (z + z') j = co z j + co z' j := by rcases j with j | j | j <;> rfl
theorem co_sub (z z' : Sys2 ι β K K') (j) : co (z - z') j = co z j - co z' j := by rcases j with j | j | j <;> rfl
theorem co_smul (a : ℝ) (z : Sys2 ι β K K') (j) : co (a • z) j = a * co z j := by rcases j with j | j | j <;> rfl
theorem co_zero (j) : co (0 : Sys2 ι β K K') j = 0 := by rcases j with j | j | j <;> rfl

theorem co_comb (c : List ℝ) (zs : List (Sys2 ι β K K')) (j) : co (comb c zs) j = comb c (zs.map fun z => co z j) := by
  unfold comb
  induction c generalizing zs with
  | nil => simpa using co_zero j
  | cons a c ih =>
    cases zs with
    | nil => simpa using co_zero j
    | cons z zs => simp [co_add, co_smul, ih]

theorem co_combine (g : List ℝ → ℝ) (zs : List (Sys2 ι β K K')) (j) : co (combine g zs) j = g (zs.map fun z => co z j) := by
  rcases j with j | j | j <;> rfl

/-- A combination of the known vectors that has the value `y`, also when more vectors are known. -/
def Holds (g : List ℝ → ℝ) (zs : List (Sys2 ι β K K')) (y : Sys2 ι β K K') : Prop := ∀ more j, g ((zs ++ more).map fun z => co z j) = co y j

theorem Holds.combine {g : List ℝ → ℝ} {zs : List (Sys2 ι β K K')} {y : Sys2 ι β K K'} (h : Holds g zs y) : Whole.combine g zs = y :=
  co_ext fun j => by
    have := h [] j
    rw [List.append_nil] at this
    rw [co_combine, this]

theorem Holds.more {g : List ℝ → ℝ} {zs : List (Sys2 ι β K K')} {y : Sys2 ι β K K'} (h : Holds g zs y) (l : List (Sys2 ι β K K')) : Holds g (zs ++ l) y :=
  fun more j => by rw [List.append_assoc]; exact h _ j

theorem holds_get (zs : List (Sys2 ι β K K')) (y : Sys2 ι β K K') : Holds (fun rs => rs.getD zs.length 0) (zs ++ [y]) y := by
  intro more j
  simp [List.getD_eq_getElem?_getD]

theorem Forall₂.holds_more {ks : List (List ℝ → ℝ)} {zs vs : List (Sys2 ι β K K')} (h : List.Forall₂ (fun g v => Holds g zs v) ks vs) (l : List (Sys2 ι β K K')) :
    List.Forall₂ (fun g v => Holds g (zs ++ l) v) ks vs := h.imp fun _ _ h => h.more l

theorem map_holds {ks : List (List ℝ → ℝ)} {zs vs : List (Sys2 ι β K K')} (h : List.Forall₂ (fun g v => Holds g zs v) ks vs) (more : List (Sys2 ι β K K')) (j) :
    (ks.map fun k => k ((zs ++ more).map fun z => co z j)) = vs.map fun v => co v j := by
  induction h with
  | nil => rfl
  | cons h _ ih => rw [List.map_cons, List.map_cons, ih, h more j]

/-- A current value plus a multiple of a combination of slopes. -/
theorem holds_step {cur : List ℝ → ℝ} {zs vs : List (Sys2 ι β K K')} {y : Sys2 ι β K K'} (hc : Holds cur zs y) {ks : List (List ℝ → ℝ)}
    (hk : List.Forall₂ (fun g v => Holds g zs v) ks vs) (h : ℝ) (c : List ℝ) :
    Holds (fun rs => cur rs + h * comb c (ks.map fun k => k rs)) zs (y + h • comb c vs) := by
  intro more j
  rw [co_add, co_smul, co_comb, ← map_holds hk more j, ← hc more j]

theorem holds_interp {cur nxt : List ℝ → ℝ} {zs : List (Sys2 ι β K K')} {y y' : Sys2 ι β K K'} (hc : Holds cur zs y) (hn : Holds nxt zs y') (t t' τ : ℝ) :
    Holds (fun rs => interp t t' (cur rs) (nxt rs) τ) zs (between t t' y y' τ) := by
  intro more j
  simp only [hc more j, hn more j]
  unfold interp between
  by_cases h1 : τ = t
  · rw [if_pos h1, if_pos h1]
  · by_cases h2 : τ = t'
    · rw [if_neg h1, if_neg h1, if_pos h2, if_pos h2]
    · rw [if_neg h1, if_neg h1, if_neg h2, if_neg h2, co_add, co_smul, co_sub]
      ring

variable [Fintype ι] [Fintype β] [Fintype K] [Fintype K']

theorem run_stages (fld : ℝ → Sys2 ι β K K' → Sys2 ι β K K') (t h : ℝ) (cur : List ℝ → ℝ) (y : Sys2 ι β K K') (next : List (List ℝ → ℝ) → ℕ → Method ℝ ℝ)
    (res : Py (List (Sys2 ι β K K'))) (ss : List (ℝ × List ℝ)) (zs vs : List (Sys2 ι β K K')) (ks : List (List ℝ → ℝ)) (hc : Holds cur zs y)
    (hk : List.Forall₂ (fun g v => Holds g zs v) ks vs)
    (hnext : ∀ more ks', List.Forall₂ (fun g v => Holds g (zs ++ more) v) ks' (slopes fld h t y ss vs) →
      runSys fld (next ks' (zs ++ more).length) (zs ++ more) = res) :
    runSys fld (stagesProg t h cur next ss ks zs.length) zs = res := by
  induction ss generalizing zs vs ks with
  | nil =>
    have := hnext [] ks (by simpa [slopes] using hk)
    simpa [stagesProg] using this
  | cons s ss ih =>
    rw [stagesProg, runSys, (holds_step hc hk h s.2).combine]
    have hlen : (zs ++ [fld (t + s.1 * h) (y + h • comb s.2 vs)]).length = zs.length + 1 := by simp
    rw [← hlen]
    refine ih (zs ++ [fld (t + s.1 * h) (y + h • comb s.2 vs)]) (vs ++ [fld (t + s.1 * h) (y + h • comb s.2 vs)]) _ (hc.more _) ?_ ?_
    · exact List.rel_append (Forall₂.holds_more hk _) (.cons (holds_get zs _) .nil)
    · intro more ks' hks'
      rw [List.append_assoc] at hks' ⊢
      exact hnext _ ks' hks'

theorem run_loop (fld : ℝ → Sys2 ι β K K' → Sys2 ι β K K') (T : Tableau) (grid : List ℝ) (t : ℝ) (y : Sys2 ι β K K') (cur : List ℝ → ℝ) (req : List ℝ)
    (outs : List (List ℝ → ℝ)) (zs os : List (Sys2 ι β K K')) (hc : Holds cur zs y) (ho : List.Forall₂ (fun g v => Holds g zs v) outs os) :
    runSys fld (solverLoop T grid zs.length cur t req outs) zs = .ok (os ++ outputs (increment T fld) t y grid req) := by
  induction grid generalizing t y cur req outs zs os with
  | nil =>
    rw [solverLoop, runSys, outputs, List.append_nil]
    congr 1
    clear hc
    induction ho with
    | nil => rfl
    | cons h _ ih => rw [List.map_cons, h.combine, ih]
  | cons t' grid ih =>
    rw [solverLoop]
    refine run_stages fld t (t' - t) cur y _ _ T.stages zs [] [] hc .nil fun more ks' hks' => ?_
    have hn := holds_step (hc.more more) hks' (t' - t) T.weights
    rw [ih t' (y + (t' - t) • increment T fld (t' - t) t y) _ _ _ (zs ++ more)
      (os ++ (req.takeWhile (· ≤ t')).map (between t t' y (y + (t' - t) • increment T fld (t' - t) t y))) hn ?_, outputs, List.append_assoc]
    refine List.rel_append (Forall₂.holds_more ho more) ?_
    rw [List.forall₂_map_left_iff, List.forall₂_map_right_iff, List.forall₂_same]
    intro τ _
    exact holds_interp (hc.more more) hn t t' τ

/-- The results of a solver whose grid fits: the initial value and the values at the other requested times. -/
theorem run_solver (fld : ℝ → Sys2 ι β K K' → Sys2 ι β K K') (T : Tableau) (grid : List ℝ → List ℝ) (t : ℝ) (ts g : List ℝ) (z : Sys2 ι β K K')
    (hi : increasing (t :: ts) = true) (hg : grid (t :: ts) = t :: g) (hl : (t :: g).getLast? = (t :: ts).getLast?) :
    runSys fld (solver T grid (t :: ts)) [z] = .ok (z :: outputs (increment T fld) t z g ts) := by
  unfold solver
  dsimp only
  rw [if_neg (by simp [hi]), hg, if_neg (by simp [hl])]
  have h0 : Holds (fun rs => rs.getD 0 0) [z] z := holds_get [] z
  exact run_loop fld T g t z (fun rs => rs.getD 0 0) ts [fun rs => rs.getD 0 0] [z] [z] h0 (.cons h0 .nil)

end Verif.Converge
