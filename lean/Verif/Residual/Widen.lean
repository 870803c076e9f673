import Verif.Residual.Enlarging

/-!
# Blocks that enlarge what is passed to them
-/

namespace Verif.Residual
open Verif Verif.Tensor Verif.Whole Verif.Evolution Verif.Flow Verif.Later Verif.Enlarge

variable {K Kp Ko Θ Rb : Type}

/-- What a block does with the states and costates that are passed to it before it uses them: it puts them in the middle of larger rows, with the values `f` and `g` around them.  `s1` is the block afterwards. -/
structure Widens (cfg : Block.Cfg ℝ ℝ Θ Rb) (r : Rb) (s s1 : Block.St ℝ ℝ Θ) (nm : String) (Lp : Lay Kp) (L : Lay K) (ι : Kp → K) (n : Nat) (f g : Fin n × K → ℝ) : Prop where
  pass : ∀ q p : Fin n × Kp → ℝ, Block.passThrough cfg r (some [(nm, enc Lp "" n q)]) (some [(nm, enc Lp "p_" n p)]) s =
    (s1, .ok (some [(nm, enc L "" n (around ι q f))], some [(nm, enc L "p_" n (around ι p g))]))
  state : s1.state = s.state
  costate : s1.costate = s.costate
  theta : s1.theta = s.theta
  time : s1.time = s.time ∧ s1.timeVector = s.timeVector

/-- The block does so now, and with the same values at every later pass (after the first one `_forward_not_yet_executed` is false, and the data dimension may have changed). -/
structure Widening (cfg : Block.Cfg ℝ ℝ Θ Rb) (r : Rb) (s s1 : Block.St ℝ ℝ Θ) (nm : String) (Lp : Lay Kp) (L : Lay K) (ι : Kp → K) (n : Nat) (f g : Fin n × K → ℝ) : Prop where
  now : Widens cfg r s s1 nm Lp L ι n f g
  later : ∀ dd r', Widens cfg r' { s1 with dataDim := dd, notYet := false } { s1 with dataDim := dd, notYet := false } nm Lp L ι n f g

/-- The block has enlargement parameters for the names and sizes of `Lp` and `L` (from its first pass, possibly trained since). -/
structure Ready (Lp : Lay Kp) (L : Lay K) (n : Nat) (s : Block.St ℝ ℝ Θ) : Prop where
  used : s.notYet = false
  state : ∃ a es, s.enlState = some [(a, es)] ∧ EntriesFit Lp L "" n es
  costate : ∃ a es, s.enlCostate = some [(a, es)] ∧ EntriesFit Lp L "p_" n es

/-- A class that enlarges: parameters are created as many as asked for, and all names can be registered. -/
structure Creates (cfg : Block.Cfg ℝ ℝ Θ Rb) (Lo : Lay Ko) : Prop where
  on : cfg.enlarge = true
  dims : ∃ d, cfg.enlargementDims = some d
  keepZero : cfg.keepZero = false
  mkState : ∀ r dk k n, (cfg.mkState r dk k n).length = n
  mkCostate : ∀ r dk k n, (cfg.mkCostate r dk k n).length = n
  names : ∀ e ∈ Lo.names, '.' ∉ e.1.toList

/-- Rows of the same sizes except for the number of channels. -/
def SamePixels (L : Lay K) (Lo : Lay Ko) : Prop :=
  ∃ l : List (String × List Nat × List Nat), L.names = l.map (fun p => (p.1, p.2.1)) ∧ Lo.names = l.map (fun p => (p.1, p.2.2)) ∧
    ∀ p ∈ l, p.2.1.tail = p.2.2.tail ∧ p.2.1 ≠ [] ∧ p.2.2 ≠ []

theorem enlargeDicts_enc {Lp : Lay Kp} {L : Lay K} {ι : Kp → K} (hLp : Lp.Ok) (hL : L.Ok) (hin : Inside Lp L ι) (pre : String) (n : Nat) (es : SDict String (Entry ℝ))
    (hes : EntriesFit Lp L pre n es) : ∃ f : Fin n × K → ℝ, ∀ (nm a : String) x, enlargeDicts [(nm, enc Lp pre n x)] (some [(a, es)]) = .ok [(nm, enc L pre n (around ι x f))] := by
  obtain ⟨f, hf⟩ := enlarge_enc hLp hL hin pre n es hes
  refine ⟨f, fun nm a x => ?_⟩
  simp only [enlargeDicts, zipItems, List.zipWith_cons_cons, List.zipWith_nil_left]
  rw [SDict.mapLoop_ok_iff (by simp [SDict.Sorted])]
  exact .cons ⟨rfl, hf x⟩ .nil

/-- C80: a block that has enlargement parameters puts everything that is passed to it in the middle, with the same values around it at every pass. -/
theorem C80_stored {Lp : Lay Kp} {L : Lay K} {ι : Kp → K} (hLp : Lp.Ok) (hL : L.Ok) (hin : Inside Lp L ι) (cfg : Block.Cfg ℝ ℝ Θ Rb) (he : cfg.enlarge = true) {s : Block.St ℝ ℝ Θ} {n : Nat}
    (hs : Ready Lp L n s) : ∃ f g : Fin n × K → ℝ, ∀ r nm, Widening cfg r s s nm Lp L ι n f g := by
  obtain ⟨a, es, h1, h2⟩ := hs.state
  obtain ⟨b, ec, h3, h4⟩ := hs.costate
  obtain ⟨f, hf⟩ := enlargeDicts_enc hLp hL hin "" n es h2
  obtain ⟨g, hg⟩ := enlargeDicts_enc hLp hL hin "p_" n ec h4
  have key : ∀ (s : Block.St ℝ ℝ Θ), s.notYet = false → s.enlState = some [(a, es)] → s.enlCostate = some [(b, ec)] → ∀ r nm, Widens cfg r s s nm Lp L ι n f g := by
   intro s hu h1 h3 r nm
   refine ⟨fun q p => ?_, rfl, rfl, rfl, rfl, rfl⟩
   unfold Block.passThrough
   dsimp only
   have hgoc : Block.getOrCreate cfg r [(nm, enc Lp "" n q)] [(nm, enc Lp "p_" n p)] s = (s, .ok ()) := by
     unfold Block.getOrCreate
     rw [if_neg (by rw [hu]; decide)]
   rw [if_pos he, hgoc]
   dsimp only
   rw [h1, h3, hf, hg]
   rfl
  exact ⟨f, g, fun r nm => ⟨key s hs.used h1 h3 r nm, fun dd r' => key { s with dataDim := dd, notYet := false } rfl h1 h3 r' nm⟩⟩

theorem create_enc {Lp : Lay Kp} {L : Lay K} {Lo : Lay Ko} {ι : Kp → K} (hLp : Lp.Ok) (hLo : Lo.Ok) (hin : Inside Lp L ι) (hsame : SamePixels L Lo) (mk : String → String → Nat → List ℝ)
    (hmk : ∀ dk k n, (mk dk k n).length = n) (pre nm : String) (n : Nat) (o : Fin n × Ko → ℝ) (dims : List Nat) :
    ∃ es, EntriesFit Lp L pre n es ∧ ∀ x, create mk [(nm, enc Lp pre n x)] (some (enc Lo pre n o)) (some dims) = .ok (some [(nm, es)]) := by
  obtain ⟨l, hl, hl', h⟩ := hin.parts
  obtain ⟨m, hm, hm', hs⟩ := hsame
  have hlen := congrArg List.length (hl'.symm.trans hm)
  simp only [List.length_map] at hlen
  have hk : SDict.keys (enc Lo pre n o) = l.map fun p => pre ++ p.1 := by
    have h1 : l.map (fun p => p.1) = m.map (fun p => p.1) := by
      have := congrArg (List.map Prod.fst) (hl'.symm.trans hm)
      simpa [Function.comp_def] using this
    have h2 := congrArg (List.map fun k => pre ++ k) h1
    unfold enc SDict.keys
    rw [hm']
    simp only [List.map_map, Function.comp_def] at h2 ⊢
    exact h2.symm
  have hnd : (l.map fun p => p.1).Nodup := by
    have := hLp.sorted
    unfold SDict.Sorted SDict.keys at this
    rw [hl, List.map_map] at this
    exact this.imp fun h => ne_of_lt h
  -- sizes by name
  let cur : String → List Nat := fun k => ((SDict.get? (enc Lp pre n fun _ => 0) k).map fun t => t.shape).getD []
  let tgt : String → List Nat := fun k => ((SDict.get? (l.map fun p => (pre ++ p.1, n :: p.2.2)) k)).getD []
  let ent : String → Entry ℝ := fun k =>
    (if cur k = tgt k then none else some (vol (tgt k) - vol (cur k), List.zipWith (fun (c n : Nat) => (n : Int) - (c : Int)) (cur k) (tgt k)) :
      Option (Nat × List Int)).map (fun c => (mk nm k c.1, c.2))
  have hget : ∀ x : Fin n × Kp → ℝ, ∀ p ∈ l, SDict.get? (enc Lp pre n x) (pre ++ p.1) = some (tab (n :: p.2.1) (value Lp n x p.1)) := by
    intro x p hp
    refine SDict.get?_eq_some_of_mem (enc_sorted hLp pre n x).nodup ?_
    unfold enc
    rw [hl, List.map_map]
    exact List.mem_map.2 ⟨p, hp, rfl⟩
  have hcur : ∀ p ∈ l, cur (pre ++ p.1) = n :: p.2.1 := by
    intro p hp
    simp only [cur, hget _ p hp]
    rfl
  have htgt : ∀ p ∈ l, tgt (pre ++ p.1) = n :: p.2.2 := by
    intro p hp
    have : SDict.get? (l.map fun p => (pre ++ p.1, n :: p.2.2)) (pre ++ p.1) = some (n :: p.2.2) := by
      refine SDict.get?_eq_some_of_mem ?_ (List.mem_map.2 ⟨p, hp, rfl⟩)
      unfold SDict.keys
      rw [List.map_map]
      have := hnd.map (f := fun k => pre ++ k) fun a b h => by
        have := congrArg String.toList h
        exact String.toList_inj.1 (by simpa using this)
      simpa [Function.comp_def] using this
    simp only [tgt, this]
    rfl
  refine ⟨(l.map fun p => pre ++ p.1).map fun k => (k, ent k), ?_, fun x => ?_⟩
  · unfold EntriesFit
    rw [hl, hl', forall₂_zip_map, List.map_map, List.forall₂_map_right_iff, List.forall₂_same]
    intro p hp
    refine ⟨rfl, ?_⟩
    simp only [Function.comp, ent]
    rw [hcur p hp, htgt p hp]
    by_cases hc : n :: p.2.1 = n :: p.2.2
    · rw [if_pos hc]
      exact hc
    · rw [if_neg hc]
      exact ⟨hmk _ _ _, rfl⟩
  · have hc := Enlarge.create_ok (mk := mk) (fun k _ => ent k) [(nm, enc Lp pre n x)] (by simp [SDict.Sorted]) (enc Lo pre n o) (enc_sorted hLo pre n o) (enc_ne hLo pre n o) dims (by
      intro q hq b hb
      rw [List.mem_singleton] at hb
      subst hb
      unfold enc at hq
      rw [hm', List.map_map] at hq
      obtain ⟨u, hu, rfl⟩ := List.mem_map.1 hq
      have : (u.1, u.2.1) ∈ l.map fun p => (p.1, p.2.2) := by
        rw [← hl', hm]
        exact List.mem_map.2 ⟨u, hu, rfl⟩
      obtain ⟨p, hp, hpu⟩ := List.mem_map.1 this
      simp only [Prod.mk.injEq] at hpu
      refine ⟨_, by simpa only [Function.comp, hpu.1] using hget x p hp, ?_⟩
      obtain ⟨g1, g2, g3, _⟩ := h p hp
      obtain ⟨f1, f2, f3⟩ := hs u hu
      have hset : setChannel (n :: u.2.2) (n :: p.2.1) = .ok (n :: p.2.2) := by
        obtain ⟨pn, ps, pq⟩ := p
        obtain ⟨un, us, uo⟩ := u
        dsimp only at *
        obtain ⟨rfl, rfl⟩ := hpu
        cases ps with
        | nil => simp at g1
        | cons a ps =>
          cases pq with
          | nil => simp at g2
          | cons b pq =>
            cases uo with
            | nil => exact absurd rfl f3
            | cons c uo =>
              simp only [List.getElem?_cons_zero, Option.some.injEq, List.tail_cons] at g2 f1
              subst g2 f1
              simp [setChannel]
      unfold Enlarge.entryFor
      show (do let desired ← setChannel (n :: u.2.2) (n :: p.2.1); _) = _
      rw [hset]
      show (do let e ← createOne (n :: p.2.2) (n :: p.2.1); _) = _
      rw [Enlarge.C24_created _ _ (fits_cons n g3)]
      simp only [bind, Except.bind, ent, Function.comp]
      rw [← hpu.1, hcur p hp, htgt p hp])
    rw [hc, hk]
    rfl

theorem entriesFit_keys {Lp : Lay Kp} {L : Lay K} {ι : Kp → K} (hin : Inside Lp L ι) {pre : String} {n : Nat} {es : SDict String (Entry ℝ)} (h : EntriesFit Lp L pre n es) :
    ∀ k ∈ SDict.keys es, ∃ e ∈ L.names, k = pre ++ e.1 := by
  obtain ⟨l, hl, hl', hh⟩ := hin.parts
  unfold EntriesFit at h
  rw [hl, hl', forall₂_zip_map] at h
  rw [hl']
  clear hl hl' hh hin
  induction h with
  | nil => simp
  | @cons a b l es h1 _ ih =>
    intro k hk
    simp only [SDict.keys, List.map_cons, List.mem_cons] at hk
    rcases hk with rfl | hk
    · exact ⟨(a.1, a.2.2), by simp, h1.1⟩
    · obtain ⟨e, he, h2⟩ := ih k hk
      exact ⟨e, by simp only [List.map_cons, List.mem_cons]; exact .inr he, h2⟩

theorem samePixels_names {L : Lay K} {Lo : Lay Ko} (h : SamePixels L Lo) : ∀ e ∈ L.names, ∃ e' ∈ Lo.names, e'.1 = e.1 := by
  obtain ⟨l, hl, hl', _⟩ := h
  intro e he
  rw [hl] at he
  obtain ⟨p, hp, rfl⟩ := List.mem_map.1 he
  exact ⟨(p.1, p.2.2), by rw [hl']; exact List.mem_map.2 ⟨p, hp, rfl⟩, rfl⟩

/-- C80: a new block creates enlargement parameters at its first pass: there are values `f` and `g` such that it puts what is passed in the middle with these values around it, and from then on, for every later pass, it has parameters and uses the same values.
Only at the end of a successful pass does the block count as used. -/
theorem C80_fresh {Lp : Lay Kp} {L : Lay K} {Lo : Lay Ko} {ι : Kp → K} (hLp : Lp.Ok) (hL : L.Ok) (hLo : Lo.Ok) (hin : Inside Lp L ι) (hsame : SamePixels L Lo) (cfg : Block.Cfg ℝ ℝ Θ Rb)
    (he : Creates cfg Lo) {s : Block.St ℝ ℝ Θ} {n : Nat} (hnew : s.notYet = true) (hes : s.enlState = none) (hec : s.enlCostate = none)
    (q p : Fin n × Ko → ℝ) (hq : s.state = some (enc Lo "" n q)) (hp : s.costate = some (enc Lo "p_" n p)) (r : Rb) (nm : String) :
    ∃ f g s1, Widening cfg r s s1 nm Lp L ι n f g ∧ (∀ dd, Ready Lp L n { s1 with dataDim := dd, notYet := false }) ∧ s1.notYet = true := by
  obtain ⟨dims, hd⟩ := he.dims
  obtain ⟨es, a1, a2⟩ := create_enc hLp hLo hin hsame (cfg.mkState r) (he.mkState r) "" nm n q dims
  obtain ⟨ec, b1, b2⟩ := create_enc hLp hLo hin hsame (cfg.mkCostate r) (he.mkCostate r) "p_" nm n p dims
  obtain ⟨f, hf⟩ := enlargeDicts_enc hLp hL hin "" n es a1
  obtain ⟨g, hg⟩ := enlargeDicts_enc hLp hL hin "p_" n ec b1
  have valid : ∀ (ref : String → String → Block.Ref) (pre : String) (z : SDict String (Enlarge.Entry ℝ)), '.' ∉ pre.toList → EntriesFit Lp L pre n z →
      ∀ p ∈ Block.enlNames ref (some [(nm, z)]), p.1 ≠ "" ∧ '.' ∉ p.1.toList := by
    intro ref pre z hpre hz
    apply Block.enlNames_valid
    intro l' hl' b hb k hkk
    rw [← Option.some.inj hl', List.mem_singleton] at hb
    subst hb
    obtain ⟨e, he1, rfl⟩ := entriesFit_keys hin hz k hkk
    obtain ⟨e', he2, he3⟩ := samePixels_names hsame e he1
    rw [String.toList_append, List.mem_append]
    rintro (h1 | h1)
    · exact hpre h1
    · exact he.names e' he2 (by rw [he3]; exact h1)
  obtain ⟨reg', hreg⟩ := Block.registerAll_ok (Block.enlNames .enlState (some [(nm, es)]) ++ Block.enlNames .enlCostate (some [(nm, ec)])) (by
    intro p hp
    rcases List.mem_append.1 hp with hp | hp
    · exact valid _ "" es (by decide +kernel) a1 p hp
    · exact valid _ "p_" ec (by decide +kernel) b1 p hp) s.reg
  have hreg' : Block.registerEnl cfg.keepZero (some [(nm, es)]) (some [(nm, ec)]) s.reg = (reg', .ok ()) := by
    unfold Block.registerEnl
    rw [if_neg (by rw [he.keepZero]; simp)]
    exact hreg
  have hex : Block.enlExists s = false := by
    unfold Block.enlExists
    rw [hes, hec]
    rfl
  refine ⟨f, g, { s with reg := reg', enlState := some [(nm, es)], enlCostate := some [(nm, ec)] }, ⟨⟨fun x y => ?_, rfl, rfl, rfl, rfl, rfl⟩, fun dd r' => ⟨fun x y => ?_, rfl, rfl, rfl, rfl, rfl⟩⟩,
    fun dd => ⟨rfl, ⟨nm, es, rfl, a1⟩, ⟨nm, ec, rfl, b1⟩⟩, hnew⟩
  · have hgoc : Block.getOrCreate cfg r [(nm, enc Lp "" n x)] [(nm, enc Lp "p_" n y)] s =
        ({ s with reg := reg', enlState := some [(nm, es)], enlCostate := some [(nm, ec)] }, .ok ()) := by
      unfold Block.getOrCreate
      rw [if_pos hnew, if_neg (by rw [hex]; decide), hq, hp, hd, a2, b2]
      simp only [bind, Except.bind]
      rw [hreg']
    unfold Block.passThrough
    dsimp only
    rw [if_pos he.on, hgoc]
    dsimp only
    rw [hf, hg]
    rfl
  · unfold Block.passThrough
    dsimp only
    rw [if_pos he.on]
    unfold Block.getOrCreate
    rw [if_neg (by simp)]
    dsimp only
    rw [hf, hg]
    rfl

/-- C80: blocks that do not enlarge use what is passed as it is. -/
theorem C80_plain {L : Lay K} (cfg : Block.Cfg ℝ ℝ Θ Rb) {s : Block.St ℝ ℝ Θ} {n : Nat} (h : NoEnlarge cfg s) (r : Rb) (nm : String) (f g : Fin n × K → ℝ) :
    Widening cfg r s s nm L L id n f g := by
  refine ⟨⟨fun q p => ?_, rfl, rfl, rfl, rfl, rfl⟩, fun dd r' => ⟨fun q p => ?_, rfl, rfl, rfl, rfl, rfl⟩⟩
  · rw [around_id, around_id]
    exact passThrough_plain cfg s h r _ _
  · rw [around_id, around_id]
    exact passThrough_plain cfg { s with dataDim := dd, notYet := false } h r' _ _

end Verif.Residual
