import Verif.ResNet.Props
import Verif.Block.Enlarging
import Verif.Striding.Props

/-!
# C42: whole networks work, and the channels are the requested ones
-/

namespace Verif.ResNet
open Verif Block Tensor

variable {α T Θ R β : Type}

/-! ## Striding a family -/

/-- The family after striding dimensions 2 and 3 by `a`. -/
def strideFam (a : Nat) (F : Fam) : Fam := ⟨F.dim, F.keys, fun k => Striding.targetShape [(a, 2), (a, 3)] (F.base k)⟩

theorem targetShape_length (ps : List (Nat × Nat)) (s : List Nat) : (Striding.targetShape ps s).length = s.length := by
  simp [Striding.targetShape]

theorem targetShape_set (a : Nat) (s : List Nat) (c : Nat) :
    Striding.targetShape [(a, 2), (a, 3)] (s.set 1 c) = (Striding.targetShape [(a, 2), (a, 3)] s).set 1 c := by
  apply List.ext_getElem?
  intro i
  by_cases hi : 1 = i
  · subst hi
    simp only [Striding.targetShape, List.getElem?_mapIdx, List.getElem?_set, List.length_mapIdx, if_true]
    split
    · simp [Striding.strideFor]
    · rfl
  · simp only [Striding.targetShape, List.getElem?_mapIdx, List.getElem?_set, if_neg hi]

theorem strideFam_good (a : Nat) {F : Fam} (h : F.Good) : (strideFam a F).Good :=
  ⟨h.keys_ne, fun k hk => by show _ < (Striding.targetShape _ _).length; rw [targetShape_length]; exact h.dim_lt k hk, h.dim_le⟩

/-- All three families after striding. -/
def strideFams (a : Nat) (X : Fams) : Fams where
  F := strideFam a X.F
  G := strideFam a X.G
  H := strideFam a X.H
  db := Striding.targetShape [(a, 2), (a, 3)] X.db
  goodF := strideFam_good a X.goodF
  goodG := strideFam_good a X.goodG
  goodH := strideFam_good a X.goodH
  sameDim := X.sameDim
  keys := X.keys
  base := by
    funext k
    show Striding.targetShape _ (X.H.base k) = _
    rw [X.base]
  rank := by
    intro k hk
    show (Striding.targetShape _ _).length ≤ (Striding.targetShape _ _).length ∧ _ + (Striding.targetShape _ _).length = _ + (Striding.targetShape _ _).length
    simp only [targetShape_length]
    exact X.rank k hk

/-- Families of images: channels in dimension 1, at least two further dimensions, the same number of dimensions for particles and data. -/
structure Images (X : Fams) : Prop where
  dim : X.F.dim = 1
  rank : 4 ≤ X.db.length
  state : ∀ k ∈ X.F.keys, (X.F.base k).length = X.db.length
  costate : ∀ k ∈ X.G.keys, (X.G.base k).length = X.db.length

theorem Images.hdim {X : Fams} (h : Images X) : X.H.dim = 1 := by
  obtain ⟨k, hk⟩ := List.exists_mem_of_ne_nil _ X.goodF.keys_ne
  have := (X.rank k hk).2
  rw [h.state k hk, h.dim] at this
  omega

theorem Images.gdim {X : Fams} (h : Images X) : X.G.dim = 1 := by rw [X.sameDim, h.dim]

theorem Images.stride {X : Fams} (h : Images X) (a : Nat) : Images (strideFams a X) where
  dim := h.dim
  rank := by show 4 ≤ (Striding.targetShape _ _).length; rw [targetShape_length]; exact h.rank
  state := fun k hk => by
    show (Striding.targetShape _ _).length = (Striding.targetShape _ _).length
    rw [targetShape_length, targetShape_length]; exact h.state k hk
  costate := fun k hk => by
    show (Striding.targetShape _ _).length = (Striding.targetShape _ _).length
    rw [targetShape_length, targetShape_length]; exact h.costate k hk

theorem strideDict_has (a : Nat) (ha : 0 < a) {F : Fam} (hd : F.dim = 1) (hl : ∀ k ∈ F.keys, 4 ≤ (F.base k).length) (w : String → Nat) (d : TDict α)
    (h : Has F w d) : ∃ d', Striding.strideDict [(a : Int), (a : Int)] [2, 3] 0 d = .ok d' ∧ Has (strideFam a F) w d' := by
  have hone : ∀ p ∈ d, ∃ t, Striding.strideMany p.2 [(a : Int), (a : Int)] [2, 3] 0 = .ok t ∧ t.WF ∧
      t.shape = Striding.targetShape [(a, 2), (a, 3)] p.2.shape := by
    intro p hp
    obtain ⟨h1, h2⟩ := h.shape p hp
    have hlen : 4 ≤ p.2.shape.length := by rw [h2, List.length_set]; exact hl _ (h.mem_keys hp)
    obtain ⟨t, g1, g2, g3, _⟩ := Striding.C21_many p.2 h1 [(a, 2), (a, 3)] 0 (by
      intro q hq
      simp only [List.mem_cons, List.not_mem_nil, or_false] at hq
      rcases hq with rfl | rfl
      · exact ⟨ha, le_rfl, (by decide : 2 ≤ 5), by dsimp only; omega⟩
      · exact ⟨ha, (by decide : 2 ≤ 3), (by decide : 3 ≤ 5), by dsimp only; omega⟩) (by simp)
    exact ⟨t, g1, g2, g3⟩
  obtain ⟨d', hd'⟩ := SDict.exists_mapsTo (f := fun t => Striding.strideMany t [(a : Int), (a : Int)] [2, 3] 0) d (fun p hp => by
    obtain ⟨t, ht, _⟩ := hone p hp
    exact ⟨t, ht⟩)
  have hs' := hd'.sorted h.sorted
  refine ⟨d', (SDict.mapLoop_ok_iff h.sorted d').2 hd', hs', by rw [hd'.keys, h.keys]; rfl, ?_⟩
  intro p hp
  have hk : p.1 ∈ SDict.keys d := by rw [← hd'.keys]; exact List.mem_map_of_mem hp
  rw [h.keys] at hk
  obtain ⟨t, ht, _, hsh⟩ := get?_of_has h p.1 hk
  obtain ⟨t', g1, g2⟩ := hd'.get? ht
  obtain ⟨t2, k1, k2, k3⟩ := hone _ (SDict.mem_of_get?_eq_some ht)
  have e1 : t2 = t' := by
    have := k1.symm.trans g1
    cases this
    rfl
  have e2 : t' = p.2 := by
    have := (SDict.get?_eq_some_iff hs').2 hp
    rw [g2] at this
    exact Option.some.inj this
  rw [← e2, ← e1]
  refine ⟨k2, ?_⟩
  rw [k3, hsh, hd]
  show _ = (Striding.targetShape _ _).set F.dim _
  rw [hd]
  exact targetShape_set a _ _

theorem strideDicts_single (strides dims : List Int) (off : Int) (n : String) (d d' : TDict α) (h : Striding.strideDict strides dims off d = .ok d') :
    Striding.strideDicts strides dims off [(n, d)] = .ok [(n, d')] := by
  unfold Striding.strideDicts SDict.mapLoop
  rw [List.foldlM_cons]
  dsimp only
  rw [h]
  rfl

/-- C42: striding what one block passes to the next. -/
theorem stride_carried (X : Fams) (hX : Images X) (a : Nat) (ha : 0 < a) (n : String) (w cw dw : String → Nat) (S C D : TDicts α)
    (h : Carried X n w cw dw S C D) :
    ∃ S' C' D', Striding.forward ⟨[(a : Int), (a : Int)], [2, 3]⟩ S C D = .ok (S', C', D') ∧ Carried (strideFams a X) n w cw dw S' C' D' := by
  obtain ⟨s, c, d, rfl, rfl, rfl, h1, h2, h3⟩ := h
  have hdb : ∀ k ∈ X.H.keys, (X.H.base k).length = X.db.length := fun k _ => by rw [X.base]
  obtain ⟨s', a1, b1⟩ := strideDict_has a ha hX.dim (fun k hk => by rw [hX.state k hk]; exact hX.rank) w s h1
  obtain ⟨c', a2, b2⟩ := strideDict_has a ha hX.gdim (fun k hk => by rw [hX.costate k hk]; exact hX.rank) cw c h2
  obtain ⟨d', a3, b3⟩ := strideDict_has a ha hX.hdim (fun k hk => by rw [hdb k hk]; exact hX.rank) dw d h3
  refine ⟨_, _, _, ?_, s', c', d', rfl, rfl, rfl, b1, b2, b3⟩
  obtain ⟨p, s0, rfl⟩ := List.exists_cons_of_ne_nil (h1.ne X.goodF)
  obtain ⟨q, d0, rfl⟩ := List.exists_cons_of_ne_nil (h3.ne X.goodH)
  have hp : p.2.shape.length = X.db.length := by
    rw [(h1.shape p (by simp)).2, List.length_set, hX.state _ (h1.mem_keys (by simp))]
  have hq : q.2.shape.length = X.db.length := by
    rw [(h3.shape q (by simp)).2, List.length_set, hdb _ (h3.mem_keys (by simp))]
  unfold Striding.forward
  simp only [Dicts.sizeOfDicts, Dicts.sizeOfDict, bind, Except.bind]
  rw [strideDicts_single _ _ _ n _ _ a1, strideDicts_single _ _ _ n _ _ a2, hp, hq, Int.sub_self, strideDicts_single _ _ _ n _ _ a3]

/-! ## Layers -/

/-- What the striding block after a layer does to the families. -/
def StridedBy (X X1 : Fams) : Option Striding.Block → Prop
  | none => X1 = X
  | some p => ∃ a : Nat, 0 < a ∧ p = ⟨[(a : Int), (a : Int)], [2, 3]⟩ ∧ X1 = strideFams a X

/-- A layer with `c` channels that gets states, costates and data with `c0` channels of the families `X0` from the block `n`: its first block has
`c - c0` channels of particles of the families `X` and enlarges what it gets, the other blocks have no particles. -/
structure LayerReady [OfNat T 0] (n : String) (X0 X : Fams) (c0 c : Nat) (b : Cfg α T Θ R × St α T Θ) (bs : List (Cfg α T Θ R × St α T Θ)) : Prop where
  images : Images X
  more : c0 ≤ c
  data : X.H = X0.H
  subF : Sub X0.F X.F
  subG : Sub X0.G X.G
  enlarges : Enlarges b.1 X.F X.G
  able : Able X b.1 b.2 (fun _ => c - c0) (fun _ => c - c0)
  prepared : Prepared X0.F X0.G X.F X.G (fun _ => c0) (fun _ => c0) b.2
  relays : ∀ b' ∈ bs, Relay X b'.1 b'.2
  names : List.IsChain (· ≠ ·) (n :: b.1.name :: bs.map fun b' => b'.1.name)

/-- The layers after the first one, with the numbers of channels `cs`. -/
def Rest [OfNat T 0] : String → Fams → Nat → List (List (Cfg α T Θ R × St α T Θ)) → List (Option Striding.Block) → List Nat → Prop
  | _, _, _, [], [], [] => True
  | n, X0, c0, (b :: bs) :: l, p :: ps, c :: cs => ∃ X, LayerReady n X0 X c0 c b bs ∧ ∃ X1, StridedBy X X1 p ∧
      Rest (lastName b.1.name (bs.map fun b' => b'.1.name)) X1 c l ps cs
  | _, _, _, _, _, _ => False

/-- The first layer: its first block makes data of the families `X` out of the output of the stem. -/
structure FirstReady [OfNat T 0] (X : Fams) (c : Nat) (b : Cfg α T Θ R × St α T Θ) (bs : List (Cfg α T Θ R × St α T Θ)) : Prop where
  images : Images X
  able : Able X b.1 b.2 (fun _ => c) (fun _ => c)
  relays : ∀ b' ∈ bs, Relay X b'.1 b'.2
  names : List.IsChain (· ≠ ·) (b.1.name :: bs.map fun b' => b'.1.name)
  initial : ∀ x : Tensor α, x.WF → x.shape = X.db.set 1 c → ∃ d, b.1.initialData x = .ok d ∧ Has X.H (fun _ => c) d

/-- A network whose layers have the numbers of channels `cs`; the stem gives images of sizes `db`. -/
def NetReady [OfNat T 0] (net : Net α T Θ R β) (db : List Nat) (cs : List Nat) : Prop :=
  ∃ X b bs l p ps c cs', net.layers = (b :: bs) :: l ∧ net.strides = p :: ps ∧ cs = c :: cs' ∧ X.db = db ∧ FirstReady X c b bs ∧
    ∃ X1, StridedBy X X1 p ∧ Rest (lastName b.1.name (bs.map fun b' => b'.1.name)) X1 c l ps cs'

/-! ## Running -/

section Run
variable [Zero α] [OfNat T 0]

/-- The value in `ret` is a tensor with `c` channels. -/
def Chan (ret : Result α) (c : Nat) : Prop := ∃ t, ret = .tensor t ∧ t.shape[1]? = some c

omit [Zero α] [OfNat T 0] in
theorem chan_of_carried {X : Fams} (hX : Images X) (n k : String) (w cw : String → Nat) (c : Nat) (S C D : TDicts α)
    (h : Carried X n w cw (fun _ => c) S C D) (t : Tensor α) (ht : Dicts.lookup D n k = some t) : t.shape[1]? = some c := by
  obtain ⟨s, co, d, rfl, rfl, rfl, _, _, h3⟩ := h
  simp only [Dicts.lookup, SDict.get?, if_pos, Option.bind_some] at ht
  have hm := SDict.mem_of_get?_eq_some ht
  have := (h3.shape _ hm).2
  dsimp only at this
  rw [this, X.base, hX.hdim, List.getElem?_set_self]
  have := X.goodH.dim_lt _ (h3.mem_keys hm)
  rw [X.base, hX.hdim] at this
  exact this

theorem relays_run (X : Fams) (hX : Images X) (r : R) (x : Tensor α) (c : Nat) (bs : List (Cfg α T Θ R × St α T Θ)) (hb : ∀ b ∈ bs, Relay X b.1 b.2)
    (n : String) (hn : List.IsChain (· ≠ ·) (n :: bs.map fun b => b.1.name)) (ret : Result α) (hret : Chan ret c) (S C D : TDicts α)
    (hd : Carried X n (fun _ => c) (fun _ => c) (fun _ => c) S C D) :
    ∃ bs' ret' S' C' D', runBlocks r x bs ⟨ret, some (S, C, D)⟩ = (bs', .ok ⟨ret', some (S', C', D')⟩) ∧ Chan ret' c ∧
      Carried X (lastName n (bs.map fun b => b.1.name)) (fun _ => c) (fun _ => c) (fun _ => c) S' C' D' ∧
      (∀ b ∈ bs', Relay X b.1 b.2) ∧ bs'.map Prod.fst = bs.map Prod.fst := by
  induction bs generalizing n ret S C D with
  | nil => exact ⟨[], ret, S, C, D, rfl, hret, hd, by simp, rfl⟩
  | cons b bs ih =>
    rw [List.map_cons, List.isChain_cons_cons] at hn
    obtain ⟨s', o, h1, h2, h3, ⟨t, ht1, ht2⟩, h4⟩ := C41_relay X b.1 b.2 (hb b (by simp)) r n hn.1 _ _ _ S C D hd
    obtain ⟨bs', ret', S', C', D', g1, g2, g3, g4, g5⟩ := ih (fun b' hb' => hb b' (List.mem_cons_of_mem _ hb')) b.1.name hn.2 o.result
      ⟨t, ht1, chan_of_carried hX _ _ _ _ c _ _ _ h3 t ht2⟩ o.state o.costate o.data h3
    refine ⟨(b.1, s') :: bs', ret', S', C', D', ?_, g2, ?_, ?_, ?_⟩
    · unfold runBlocks runBlock
      show (match (match Block.forward b.1 r ⟨none, some S, some C, some D⟩ b.2 with
        | (s, .error e) => ((b.1, s), .error e)
        | (s, .ok o) => ((b.1, s), .ok ⟨if (some (S, C, D)).isNone then ret else o.result, some (o.state, o.costate, o.data)⟩) : (Cfg α T Θ R × St α T Θ) × Py (Loop α)) with
        | (b, .error e) => (b :: bs, .error e)
        | (b, .ok L) => (b :: (runBlocks r x bs L).1, (runBlocks r x bs L).2) : List (Cfg α T Θ R × St α T Θ) × Py (Loop α)) = _
      rw [h1]
      simp only [Option.isNone_some, Bool.false_eq_true, if_false]
      rw [g1]
    · have : lastName n ((b :: bs).map fun b => b.1.name) = lastName b.1.name (bs.map fun b => b.1.name) := by
        unfold lastName
        rw [List.map_cons, List.getLast?_cons]
        rfl
      rw [this]
      exact g3
    · intro b' hb'
      rcases List.mem_cons.1 hb' with rfl | hb'
      · exact h4
      · exact g4 b' hb'
    · rw [List.map_cons, List.map_cons, g5]

omit [Zero α] [OfNat T 0] in
theorem stride_run (X X1 : Fams) (hX : Images X) (p : Option Striding.Block) (hp : StridedBy X X1 p) (n : String) (w cw dw : String → Nat) (ret : Result α)
    (S C D : TDicts α) (hd : Carried X n w cw dw S C D) :
    ∃ S' C' D', runStride p ⟨ret, some (S, C, D)⟩ = .ok ⟨ret, some (S', C', D')⟩ ∧ Carried X1 n w cw dw S' C' D' ∧ Images X1 := by
  cases p with
  | none =>
    have : X1 = X := hp
    subst this
    exact ⟨S, C, D, rfl, hd, hX⟩
  | some p =>
    obtain ⟨a, ha, rfl, rfl⟩ := hp
    obtain ⟨S', C', D', h1, h2⟩ := stride_carried X hX a ha n w cw dw S C D hd
    refine ⟨S', C', D', ?_, h2, hX.stride a⟩
    unfold runStride
    dsimp only
    rw [h1]
    rfl

omit [OfNat T 0] in
theorem runLayers_step (r : R) (x : Tensor α) (bs bs' : List (Cfg α T Θ R × St α T Θ)) (l : List (List (Cfg α T Θ R × St α T Θ))) (p : Option Striding.Block)
    (ps : List (Option Striding.Block)) (L L1 L2 : Loop α) (h1 : runBlocks r x bs L = (bs', .ok L1)) (h2 : runStride p L1 = .ok L2) :
    runLayers r x (bs :: l) (p :: ps) L = (bs' :: (runLayers r x l ps L2).1, (runLayers r x l ps L2).2) := by
  rw [runLayers, h1]
  dsimp only
  rw [h2]

theorem rest_run (r : R) (x : Tensor α) (l : List (List (Cfg α T Θ R × St α T Θ))) (ps : List (Option Striding.Block)) (cs : List Nat) (n : String) (X0 : Fams)
    (hX0 : Images X0) (c0 : Nat) (h : Rest n X0 c0 l ps cs) (ret : Result α) (hret : Chan ret c0) (S C D : TDicts α)
    (hd : Carried X0 n (fun _ => c0) (fun _ => c0) (fun _ => c0) S C D) :
    ∃ l' ret' d', runLayers r x l ps ⟨ret, some (S, C, D)⟩ = (l', .ok ⟨ret', d'⟩) ∧ Chan ret' ((c0 :: cs).getLast (by simp)) ∧ Rest n X0 c0 l' ps cs := by
  induction l generalizing ps cs n X0 c0 ret S C D with
  | nil =>
    cases ps with
    | cons => cases cs <;> cases h
    | nil =>
      cases cs with
      | cons => cases h
      | nil => exact ⟨[], ret, _, rfl, hret, trivial⟩
  | cons bs l ih =>
    cases bs with
    | nil => cases ps <;> cases cs <;> cases h
    | cons b bs =>
      cases ps with
      | nil => cases cs <;> cases h
      | cons p ps =>
        cases cs with
        | nil => cases h
        | cons c cs =>
          obtain ⟨X, hl, X1, hp, hrest⟩ := h
          obtain ⟨st, ct, dt, rfl, rfl, rfl, hst, hct, hdt⟩ := hd
          have hnames := hl.names
          rw [List.isChain_cons_cons] at hnames
          obtain ⟨s', o, f1, f2, f3, f4, f5⟩ := C41_enlarging_step X X0.F X0.G hl.subF hl.subG b.1 hl.enlarges b.2 _ _ hl.able r n hnames.1 _ _ (fun _ => c0)
            hl.prepared st ct dt hst hct (by rw [hl.data]; exact hdt)
          obtain ⟨hcar, ⟨t, ht1, ht2⟩, _⟩ := f2
          have hc : (fun _ : String => c - c0 + c0) = fun _ => c := by
            funext _
            have := hl.more
            omega
          simp only [hc] at hcar
          obtain ⟨bs', ret1, S1, C1, D1, g1, g2, g3, g4, g5⟩ := relays_run X hl.images r x c bs hl.relays b.1.name hnames.2 o.result
            ⟨t, ht1, chan_of_carried hl.images _ _ _ _ c _ _ _ hcar t ht2⟩ o.state o.costate o.data hcar
          obtain ⟨S2, C2, D2, k1, k2, k3⟩ := stride_run X X1 hl.images p hp _ _ _ _ ret1 S1 C1 D1 g3
          obtain ⟨l', ret', d', m1, m2, m3⟩ := ih ps cs _ X1 k3 c hrest ret1 g2 S2 C2 D2 k2
          have hblocks : runBlocks r x (b :: bs) ⟨ret, some ([(n, st)], [(n, ct)], [(n, dt)])⟩ = ((b.1, s') :: bs', .ok ⟨ret1, some (S1, C1, D1)⟩) := by
            have hone : runBlock r x b ⟨ret, some ([(n, st)], [(n, ct)], [(n, dt)])⟩ = ((b.1, s'), .ok ⟨o.result, some (o.state, o.costate, o.data)⟩) := by
              unfold runBlock
              show (match Block.forward b.1 r ⟨none, some [(n, st)], some [(n, ct)], some [(n, dt)]⟩ b.2 with
                | (s, .error e) => ((b.1, s), .error e)
                | (s, .ok o) => ((b.1, s), .ok ⟨o.result, some (o.state, o.costate, o.data)⟩) : (Cfg α T Θ R × St α T Θ) × Py (Loop α)) = _
              rw [f1]
            rw [runBlocks, hone]
            dsimp only
            rw [g1]
          refine ⟨((b.1, s') :: bs') :: l', ret', d', ?_, ?_, ?_⟩
          · rw [runLayers_step r x _ _ l p ps _ _ _ hblocks k1, m1]
          · rw [List.getLast_cons (by simp)]
            exact m2
          · have hnm : (bs'.map fun b' => b'.1.name) = bs.map fun b' => b'.1.name := by
              have := congrArg (List.map Cfg.name) g5
              simpa [List.map_map, Function.comp_def] using this
            refine ⟨X, ⟨hl.images, hl.more, hl.data, hl.subF, hl.subG, hl.enlarges, f3, f4, g4, ?_⟩, X1, hp, ?_⟩
            · rw [hnm]
              exact hl.names
            · rw [hnm]
              exact m3

/-- C42: every network with ready layers works on every image of the right size: the head gets a tensor with the number of channels of the last
layer.  Afterwards the network is ready again, so this holds for every later pass as well (and, by `C41_trained`, after optimiser
steps). -/
theorem C42_works (net : Net α T Θ R β) (db cs : List Nat) (h : NetReady net db cs) (r : R) (x x0 : Tensor α) (c : Nat) (hc : cs[0]? = some c)
    (hx : net.stem x = .ok x0) (hwf : x0.WF) (hsh : x0.shape = db.set 1 c) :
    ∃ t, (forward net r x).2 = net.head (.tensor t) ∧ t.shape[1]? = cs.getLast? ∧ NetReady (forward net r x).1 db cs := by
  obtain ⟨X, b, bs, l, p, ps, c', cs', h1, h2, rfl, rfl, hf, X1, hp, hrest⟩ := h
  have : c' = c := by simpa using hc
  subst this
  obtain ⟨d, hd1, hd2⟩ := hf.initial x0 hwf hsh
  obtain ⟨o, f1, f2, _⟩ := C41_first X b.1 b.2 _ _ hf.able r x0 d hd1 _ hd2
  have hrank := hf.images.rank
  have hret : Chan (.tensor x0) c' := ⟨x0, rfl, by rw [hsh, List.getElem?_set_self (by omega)]⟩
  obtain ⟨bs', ret1, S1, C1, D1, g1, g2, g3, g4, g5⟩ := relays_run X hf.images r x0 c' bs hf.relays b.1.name hf.names (.tensor x0) hret _ _ _ f2
  obtain ⟨S2, C2, D2, k1, k2, k3⟩ := stride_run X X1 hf.images p hp _ _ _ _ ret1 S1 C1 D1 g3
  obtain ⟨l', ret', d', m1, m2, m3⟩ := rest_run r x0 l ps cs' _ X1 k3 c' hrest ret1 g2 S2 C2 D2 k2
  obtain ⟨t, rfl, ht⟩ := m2
  have hblocks : runBlocks r x0 (b :: bs) ⟨.tensor x0, none⟩ = ((b.1, { b.2 with notYet := false }) :: bs', .ok ⟨ret1, some (S1, C1, D1)⟩) := by
    have hone : runBlock r x0 b ⟨.tensor x0, none⟩ = ((b.1, { b.2 with notYet := false }), .ok ⟨.tensor x0, some (o.state, o.costate, o.data)⟩) := by
      unfold runBlock
      show (match Block.forward b.1 r ⟨some x0, none, none, none⟩ b.2 with
        | (s, .error e) => ((b.1, s), .error e)
        | (s, .ok o) => ((b.1, s), .ok ⟨.tensor x0, some (o.state, o.costate, o.data)⟩) : (Cfg α T Θ R × St α T Θ) × Py (Loop α)) = _
      rw [f1]
    rw [runBlocks, hone]
    dsimp only
    rw [g1]
  have hrun : runLayers r x0 net.layers net.strides ⟨.tensor x0, none⟩ = (((b.1, { b.2 with notYet := false }) :: bs') :: l', .ok ⟨.tensor t, d'⟩) := by
    rw [h1, h2, runLayers_step r x0 _ _ l p ps _ _ _ hblocks k1, m1]
  have hready : ∀ y : Bool, NetReady ({ net with layers := ((b.1, { b.2 with notYet := false }) :: bs') :: l', notYet := y } : Net α T Θ R β) X.db (c' :: cs') := by
    intro y
    have hnm : (bs'.map fun b' => b'.1.name) = bs.map fun b' => b'.1.name := by
      have := congrArg (List.map Cfg.name) g5
      simpa [List.map_map, Function.comp_def] using this
    refine ⟨X, _, bs', l', p, ps, c', cs', rfl, h2, rfl, rfl, ⟨hf.images, ?_, g4, ?_, hf.initial⟩, X1, hp, ?_⟩
    · exact ⟨hf.able.concat, hf.able.dim, hf.able.out, hf.able.own, hf.able.cown, hf.able.time⟩
    · rw [hnm]
      exact hf.names
    · rw [hnm]
      exact m3
  refine ⟨t, ?_, ?_, ?_⟩
  · unfold forward
    rw [hx]
    dsimp only
    rw [hrun]
    dsimp only
    cases net.head (.tensor t) <;> rfl
  · rw [ht, List.getLast?_eq_some_getLast]
  · unfold forward
    rw [hx]
    dsimp only
    rw [hrun]
    dsimp only
    cases net.head (.tensor t) with
    | error e => exact hready net.notYet
    | ok y => exact hready false

end Run

end Verif.ResNet
