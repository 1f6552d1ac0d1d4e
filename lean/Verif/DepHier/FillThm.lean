/-
`FindDepressionsToFill` spreads the water of every topmost wet depression exactly once.
-/
import Verif.DepHier.Fill
import Mathlib.Tactic.Ring
import Mathlib.Tactic.Linarith

namespace RichDEM

variable {E : Type} [Field E] [LinearOrder E] [IsStrictOrderedRing E]
variable {w h : Nat} {dem : Cell → E} {label : Cell → Option Nat} {n0 n : Nat} {dep : Nat → Dep E} {pit : Nat → Cell}
  {vol : Nat → E}

omit [IsStrictOrderedRing E] [LinearOrder E] [Field E] in
theorem inLabs_iff {labs : Nat → Bool} {d : Nat} (hlabs : ∀ x, labs x = true ↔ Anc dep x d) (q : Cell) :
    inLabs label labs q = true ↔ InDep label dep d q := by
  unfold inLabs InDep
  cases label q with
  | none => simp
  | some l => simp [hlabs]

omit [IsStrictOrderedRing E] in
/-- A path inside a depression not above its outlet is a path for the flooding. -/
theorem InConn.lakePath {labs : Nat → Bool} {d : Nat} (hlabs : ∀ x, labs x = true ↔ Anc dep x d) {out : Cell} {m : E}
    (hm : m ≤ dem out) {p a b : Cell} (P : LakePath w h dem label labs out p m a)
    (c : InConn w h dem (InDep label dep d) m a b) : LakePath w h dem label labs out p m b := by
  induction c with
  | refl => exact P
  | @step a b c _ _ _ h4 h5 ih =>
    obtain ⟨g1, g2, g3⟩ := h5.left
    refine ih (.step P h4 g1 ?_ g3)
    by_cases hb : b = out
    · exact Or.inr hb
    · exact Or.inl ⟨g1, (inLabs_iff hlabs b).2 g2, g3.trans hm, hb⟩

/-- The hypotheses of `C65_returns_partial` for a depression whose children are full. -/
theorem Geo.lakePre (G : Geo w h dem label n0 n dep pit vol) {d l : Nat} (hd : d < n) (h0 : d ≠ 0) (hl : l < n0)
    (hld : Anc dep l d) {labs : Nat → Bool} (hlabs : ∀ x, labs x = true ↔ Anc dep x d) {v : E} (hv : 0 < v)
    (hcap : v ≤ vol d) (hlow : kidVol dep vol d ≤ v) {e : Cell} {z : E} (hz : (dep d).outElev = some z)
    (he : (dep d).outCell = some e) {wtd : Cell → E} (hdry : ∀ c, InGrid w h c → InDep label dep d c → wtd c = 0)
    (hdryE : wtd e = 0) :
    dem e = z ∧ ∃ (R : Finset Cell) (full : E), LakePre w h dem label labs e (pit l) R full v wtd ∧
      ∀ q, q ∈ R ↔ InGrid w h q ∧ InDep label dep d q ∧ dem q ≤ z ∧ q ≠ e := by
  classical
  obtain ⟨hsp, u, u', e', _, _, _, _, _, _, e1, _, hez⟩ := G.spill d z hd h0 hz
  rw [he] at e1; cases e1
  refine ⟨hez, ?_⟩
  obtain ⟨z', S, hz', hS, hvol⟩ := G.vols d hd h0
  rw [hz] at hz'; cases hz'
  obtain ⟨full, hfull⟩ := G.full_exists hd
  have hfz := G.full_le hd h0 hfull hz
  have hR : ∀ q, q ∈ S.erase e ↔ InGrid w h q ∧ InDep label dep d q ∧ dem q ≤ z ∧ q ≠ e := by
    intro q
    rw [Finset.mem_erase, hS]; tauto
  have hReg : ∀ q, Reg w h dem label labs e q ↔ InGrid w h q ∧ InDep label dep d q ∧ dem q ≤ z ∧ q ≠ e := by
    intro q
    unfold Reg
    rw [inLabs_iff hlabs, hez]
  have hl0 : l ≠ 0 := AncU.ne_zero G.T.toDepTree hld h0
  obtain ⟨p1, p2, _⟩ := G.pits l hl0 hl
  have hpf : dem (pit l) ≤ full := (G.pits_conn d full hd h0 hfull l l hl hl hld hld).left.2.2
  refine ⟨S.erase e, full, ⟨?_, ?_, hdryE, hv, ?_, ?_, ?_, ?_⟩, hR⟩
  · intro q; rw [hR, hReg]
  · intro q hq
    obtain ⟨q1, q2, _⟩ := (hReg q).1 hq
    exact hdry q q1 q2
  · rw [hez]
    refine hcap.trans (le_of_eq ?_)
    rw [hvol]
    by_cases hin : e ∈ S
    · rw [← Finset.add_sum_erase S _ hin, hez, sub_self, zero_add]
    · rw [Finset.erase_eq_of_notMem hin]
  · have hf := hfull
    rcases hf with ⟨h1, hf⟩ | ⟨h1, a, ha, hza⟩
    · refine le_trans (le_of_eq (Finset.sum_eq_zero ?_)) hv.le
      intro q hq
      rw [Finset.mem_filter, hR] at hq
      obtain ⟨⟨_, ⟨x, x1, x2⟩, _⟩, hle⟩ := hq
      obtain rfl := G.T.anc_leaf x2 h1
      have := G.low_pit x1 h0
      rw [hf] at hle ⊢
      rw [le_antisymm hle this, sub_self]
    · obtain ⟨a', b, k1, k2, k3, k4, k5, k6, k7, k8, k9, k10⟩ := G.T.kids d h1 hd
      rw [ha] at k1; cases k1
      have hkv : kidVol dep vol d = vol a + vol b := by unfold kidVol; rw [ha, k2]
      rw [hkv] at hlow
      obtain ⟨za, Sa, ea, hSa, va⟩ := G.vols a (by omega) k6
      obtain ⟨zb, Sb, eb, hSb, vb⟩ := G.vols b (by omega) k7
      rw [hza] at ea; cases ea
      rw [← k10, hza] at eb; cases eb
      have hsub : (S.erase e).filter (fun q => dem q ≤ full) ⊆ Sa ∪ Sb := by
        intro q hq
        rw [Finset.mem_filter, hR] at hq
        obtain ⟨⟨q1, ⟨x, x1, x2⟩, _⟩, hle⟩ := hq
        have hx : x < n0 := by
          obtain ⟨x', y1, y2⟩ := G.lab q q1
          rw [x1] at y1; cases y1; exact y2
        rw [Finset.mem_union, hSa, hSb]
        rcases G.T.anc_kids x2 (by omega) ha k2 with hk | hk
        · exact Or.inl ⟨q1, ⟨x, x1, hk⟩, hle⟩
        · exact Or.inr ⟨q1, ⟨x, x1, hk⟩, hle⟩
      have hnnU : ∀ q ∈ Sa ∪ Sb, 0 ≤ full - dem q := by
        intro q hq
        rw [Finset.mem_union, hSa, hSb] at hq
        rcases hq with hq | hq <;> exact sub_nonneg.2 hq.2.2
      refine (Finset.sum_le_sum_of_subset_of_nonneg hsub fun q hq _ => hnnU q hq).trans ?_
      refine le_trans ?_ hlow
      rw [va, vb, ← Finset.sum_union_inter]
      have : 0 ≤ (Sa ∩ Sb).sum (fun c => full - dem c) := Finset.sum_nonneg fun q hq =>
        hnnU q (Finset.mem_union_left _ (Finset.mem_inter.1 hq).1)
      linarith
  · by_cases hpe : pit l = e
    · exact Or.inr hpe
    · exact Or.inl ((hReg _).2 ⟨p2, ⟨l, p1, hld⟩, hpf.trans hfz, hpe⟩)
  · intro q hq
    obtain ⟨q1, ⟨x, x1, x2⟩, q3, q4⟩ := (hReg q).1 hq
    have hx : x < n0 := by
      obtain ⟨x', y1, y2⟩ := G.lab q q1
      rw [x1] at y1; cases y1; exact y2
    have hx0 := AncU.ne_zero G.T.toDepTree x2 h0
    refine ⟨hpf.trans (le_max_left _ _), ?_⟩
    have c1 := (G.pits_conn d full hd h0 hfull l x hl hx hld x2).mono (fun _ h => h) (le_max_left full (dem q))
    have c2 := ((G.down q x x1 hx0).symm).mono (S' := InDep label dep d) (fun c hc => ⟨x, hc, x2⟩)
      (le_max_right full (dem q))
    exact InConn.lakePath hlabs (by rw [hez]; exact max_le hfz q3) .pit (c1.trans c2)

/-! ### The water after the overflows -/

/-- What `MoveWaterInDepHier` leaves behind. -/
structure WetTree (n0 n : Nat) (dep : Nat → Dep E) (vol W : Nat → E) : Prop where
  nn : ∀ d, d < n → 0 ≤ W d
  le : ∀ d, d < n → d ≠ 0 → W d ≤ vol d
  kids : ∀ d c, W d ≠ 0 → upOf dep c = some d → W c = vol c
  low : ∀ d, n0 ≤ d → d < n → W d ≠ 0 → kidVol dep vol d ≤ W d
  pos : ∀ c, c < n → c ≠ 0 → (dep c).oceanParent = false → 0 < vol c

/-- A wet depression whose parent in its tree is dry: its water is spread over its cells. -/
def TopWet (n : Nat) (dep : Nat → Dep E) (W : Nat → E) (d : Nat) : Prop :=
  d < n ∧ d ≠ 0 ∧ W d ≠ 0 ∧ ∀ p, upOf dep d = some p → W p = 0

variable {W : Nat → E}

omit [Field E] [IsStrictOrderedRing E] [LinearOrder E] in
theorem upOf_eq {d p : Nat} : upOf dep d = some p ↔ (dep d).parent = some p ∧ (dep d).oceanParent = false := by
  unfold upOf
  cases (dep d).oceanParent <;> simp

omit [IsStrictOrderedRing E] in
/-- Below a wet depression everything is wet. -/
theorem WetTree.below (T : FlowTree n0 n dep) (K : WetTree n0 n dep vol W) {x d : Nat} (a : Anc dep x d) (hx : x < n)
    (hw : W d ≠ 0) : W x ≠ 0 := by
  induction a with
  | refl => exact hw
  | @step l p x h _ ih =>
    have hp := T.up l p h
    have := ih (by omega) hw
    rw [K.kids p l this h]
    by_cases h0 : l = 0
    · subst h0
      have := (upOf_eq.1 h).1
      rw [T.ocean] at this; cases this
    · exact (K.pos l hx h0 (upOf_eq.1 h).2).ne'

omit [IsStrictOrderedRing E] in
/-- Two different topmost wet depressions do not overlap. -/
theorem WetTree.antichain (T : FlowTree n0 n dep) (K : WetTree n0 n dep vol W) {x y : Nat} (hx : TopWet n dep W x)
    (hy : TopWet n dep W y) (a : Anc dep x y) : x = y := by
  cases a with
  | refl => rfl
  | @step _ p _ h b =>
    exact absurd (hx.2.2.2 p h) (K.below T b (T.up x p h).2.1 hy.2.2.1)

omit [IsStrictOrderedRing E] in
theorem WetTree.disjoint (T : FlowTree n0 n dep) (K : WetTree n0 n dep vol W) {x y : Nat} (hx : TopWet n dep W x)
    (hy : TopWet n dep W y) {c : Cell} (cx : InDep label dep x c) (cy : InDep label dep y c) : x = y := by
  obtain ⟨l, h1, h2⟩ := cx
  obtain ⟨l', h3, h4⟩ := cy
  rw [h1] at h3; cases h3
  rcases AncU.chain h2 h4 with h | h
  · exact K.antichain T hx hy h
  · exact (K.antichain T hy hx h).symm

open Classical in
omit [IsStrictOrderedRing E] in
/-- The decision taken for each depression. -/
theorem WetTree.fillNow (T : FlowTree n0 n dep) (K : WetTree n0 n dep vol W) {d : Nat} (hd : d < n) (h0 : d ≠ 0) :
    RichDEM.fillNow n dep vol W d = some (decide (W d = 0 ∨ TopWet n dep W d)) := by
  unfold RichDEM.fillNow
  cases ho : (dep d).oceanParent with
  | true =>
    rw [if_pos (Or.inr rfl)]
    congr 1; symm; rw [decide_eq_true_iff]
    by_cases hw : W d = 0
    · exact Or.inl hw
    · refine Or.inr ⟨hd, h0, hw, fun p hp => ?_⟩
      have := (upOf_eq.1 hp).2
      rw [ho] at this; cases this
  | false =>
    have hpos := K.pos d hd h0 ho
    obtain ⟨p, hp⟩ := Option.ne_none_iff_exists'.1 (T.par d hd h0)
    have hup : upOf dep d = some p := upOf_eq.2 ⟨hp, ho⟩
    have hpn := (T.up d p hup).2.1
    by_cases hlt : W d < vol d
    · rw [if_pos (Or.inl hlt)]
      congr 1; symm; rw [decide_eq_true_iff]
      by_cases hw : W d = 0
      · exact Or.inl hw
      · refine Or.inr ⟨hd, h0, hw, fun p' hp' => ?_⟩
        by_contra hne
        exact hlt.ne (K.kids p' d hne hp')
    · have heq : W d = vol d := le_antisymm (K.le d hd h0) (not_lt.1 hlt)
      rw [if_neg (by simp [hlt]), if_pos heq, hp]
      simp only [hpn, if_true]
      congr 1
      rw [decide_eq_decide]
      constructor
      · intro hz
        refine Or.inr ⟨hd, h0, by rw [heq]; exact hpos.ne', fun p' hp' => ?_⟩
        rw [hup] at hp'; cases hp'; exact hz
      · rintro (hz | hz)
        · rw [heq] at hz; exact absurd hz hpos.ne'
        · exact hz.2.2.2 p hup

/-! ### The spreading -/

open Classical in
/-- The cells of a depression. -/
noncomputable def depCells (w h : Nat) (label : Cell → Option Nat) (dep : Nat → Dep E) (d : Nat) : Finset Cell :=
  (gridCells w h).filter (InDep label dep d)

omit [IsStrictOrderedRing E] [LinearOrder E] [Field E] in
theorem mem_depCells {d : Nat} {c : Cell} : c ∈ depCells w h label dep d ↔ InGrid w h c ∧ InDep label dep d c := by
  classical
  unfold depCells
  rw [Finset.mem_filter, mem_gridCells]

/-- The depression carries a flat lake of the right volume, not above its outlet. -/
def LakeIn (w h : Nat) (dem : Cell → E) (label : Cell → Option Nat) (dep : Nat → Dep E) (eps v : E) (d : Nat)
    (wtd : Cell → E) : Prop :=
  ∃ level z, (dep d).outElev = some z ∧ level ≤ z ∧
    (∀ c ∈ depCells w h label dep d, wtd c = max 0 (level - dem c) ∨ (wtd c = 0 ∧ level ≤ dem c + 2 * eps)) ∧
    |(depCells w h label dep d).sum wtd - v| ≤ 3 * eps * ((depCells w h label dep d).card + 1)

/-- The state of the water tables after the depressions of `P` have been treated. -/
structure SpreadInv (w h : Nat) (dem : Cell → E) (label : Cell → Option Nat) (n : Nat) (dep : Nat → Dep E) (eps : E)
    (W : Nat → E) (P : Finset Nat) (wtd : Cell → E) : Prop where
  wet : ∀ d ∈ P, TopWet n dep W d → LakeIn w h dem label dep eps (W d) d wtd
  dry : ∀ c, InGrid w h c → (∀ d ∈ P, TopWet n dep W d → ¬ InDep label dep d c) → wtd c = 0

omit [IsStrictOrderedRing E] in
theorem LakeIn.congr {eps v : E} {d : Nat} {wtd wtd' : Cell → E} (L : LakeIn w h dem label dep eps v d wtd)
    (hc : ∀ c ∈ depCells w h label dep d, wtd' c = wtd c) : LakeIn w h dem label dep eps v d wtd' := by
  obtain ⟨level, z, h1, h2, h3, h4⟩ := L
  refine ⟨level, z, h1, h2, fun c h => ?_, ?_⟩
  · rw [hc c h]; exact h3 c h
  · rw [Finset.sum_congr rfl hc]; exact h4

/-- One depression is filled. -/
theorem Geo.fill (pq : PQ (E × Cell) zLt) (G : Geo w h dem label n0 n dep pit vol) (K : WetTree n0 n dep vol W) {eps : E}
    (heps : 0 < eps) {P : Finset Nat} {wtd : Cell → E} (I : SpreadInv w h dem label n dep eps W P wtd) {d l : Nat}
    (hd : TopWet n dep W d) (hP : d ∉ P) (hl : l < n0) (hld : Anc dep l d) {labs : Nat → Bool}
    (hlabs : ∀ x, labs x = true ↔ Anc dep x d) :
    ∃ wtd', fillAt pq w h dem label eps (dep l).pit (dep d).outCell labs (W d) wtd = .ok wtd' ∧
      SpreadInv w h dem label n dep eps W (insert d P) wtd' := by
  obtain ⟨hdn, h0, hw, hup⟩ := hd
  have hd : TopWet n dep W d := ⟨hdn, h0, hw, hup⟩
  obtain ⟨z, hz⟩ := G.T.elev d hdn h0
  obtain ⟨_, u, v, e, s1, s2, s3, s4, s5, s6, he, s7, s8⟩ := G.spill d z hdn h0 hz
  have hother : ∀ x ∈ P, TopWet n dep W x → ∀ c, InDep label dep d c → ¬ InDep label dep x c := by
    intro x hx hxt c c1 c2
    have := K.disjoint G.T hxt hd c2 c1
    subst this; exact hP hx
  have hdry : ∀ c, InGrid w h c → InDep label dep d c → wtd c = 0 := fun c c1 c2 =>
    I.dry c c1 fun x hx hxt => hother x hx hxt c c2
  have heg : InGrid w h e := by rcases s7 with rfl | rfl <;> assumption
  have hdryE : wtd e = 0 := by
    by_cases hex : ∃ x ∈ P, TopWet n dep W x ∧ InDep label dep x e
    · obtain ⟨x, hx, hxt, hxe⟩ := hex
      have hev : e = v := by
        rcases s7 with rfl | h
        · exact absurd hxe (hother x hx hxt _ s4)
        · exact h
      subst hev
      obtain ⟨level, zx, y1, y2, y3, _⟩ := I.wet x hx hxt
      have hzx := (G.spill x zx hxt.1 hxt.2.1 y1).1 e u s1.symm s3 s2 hxe (hother x hx hxt u s4)
      rw [max_comm, ← s6, ← s8] at hzx
      rcases y3 e (mem_depCells.2 ⟨heg, hxe⟩) with h | h
      · rw [h]; exact max_eq_left (by linarith)
      · exact h.1
    · push Not at hex
      exact I.dry e heg fun x hx hxt hxe => hex x hx hxt hxe
  have hlow : kidVol dep vol d ≤ W d := by
    by_cases hln : d < n0
    · have : kidVol dep vol d = 0 := by unfold kidVol; rw [(G.T.leaf d hln).1]
      rw [this]; exact K.nn d hdn
    · exact K.low d (by omega) hdn hw
  have hpos : 0 < W d := lt_of_le_of_ne (K.nn d hdn) (Ne.symm hw)
  obtain ⟨hez, R, full, Pre, hR⟩ := G.lakePre hdn h0 hl hld hlabs hpos (K.le d hdn h0) hlow hz he hdry hdryE
  have hRsub : R ⊆ depCells w h label dep d := by
    intro q hq
    obtain ⟨q1, q2, _⟩ := (hR q).1 hq
    exact mem_depCells.2 ⟨q1, q2⟩
  have hcard : R.card ≤ w * h := by
    have : (gridCells w h).card = w * h := by
      rw [← toFinset_allCells, List.toFinset_card_of_nodup (nodup_allCells w h), length_allCells]
    rw [← this]
    exact Finset.card_le_card fun q hq => mem_gridCells.2 ((hR q).1 hq).1
  obtain ⟨w1, hr, ⟨level, r1, r2⟩, r3, r4⟩ := C65_returns_partial pq w h dem label labs eps (pit l) e heps R full (W d) wtd
    Pre (w * h + 2) (by omega)
  obtain ⟨_, _, hp⟩ := G.pits l (AncU.ne_zero G.T.toDepTree hld h0) hl
  have hin : ∀ c ∈ depCells w h label dep d, c ∉ R → w1 c = 0 ∧ level ≤ dem c := by
    intro c hc hcR
    obtain ⟨c1, c2⟩ := mem_depCells.1 hc
    refine ⟨by rw [r3 c hcR]; exact hdry c c1 c2, r1.trans ?_⟩
    rw [hez]
    by_contra hlt
    rw [not_le] at hlt
    refine hcR ((hR c).2 ⟨c1, c2, hlt.le, ?_⟩)
    rintro rfl
    exact hlt.ne hez
  refine ⟨w1, ?_, ?_, ?_⟩
  · unfold fillAt
    rw [if_neg hw, hp, he]
    exact hr
  · intro x hx hxt
    rcases Finset.mem_insert.1 hx with rfl | hx
    · refine ⟨level, z, hz, by rw [← hez]; exact r1, ?_, ?_⟩
      · intro c hc
        by_cases hcR : c ∈ R
        · exact r2 c hcR
        · obtain ⟨c1, c2⟩ := hin c hc hcR
          left; rw [c1]; exact (max_eq_left (by linarith)).symm
      · have hs : (depCells w h label dep x).sum w1 = R.sum w1 := by
          symm
          exact Finset.sum_subset hRsub fun c hc hcR => (hin c hc hcR).1
        rw [hs]
        refine r4.trans ?_
        have : (R.card : E) ≤ (depCells w h label dep x).card := by exact_mod_cast Finset.card_le_card hRsub
        nlinarith
    · refine (I.wet x hx hxt).congr fun c hc => r3 c fun hcR => ?_
      exact hother x hx hxt c ((hR c).1 hcR).2.1 (mem_depCells.1 hc).2
  · intro c hc hno
    have hcd : ¬ InDep label dep d c := hno d (Finset.mem_insert_self _ _) hd
    rw [r3 c fun hcR => hcd ((hR c).1 hcR).2.1]
    exact I.dry c hc fun x hx => hno x (Finset.mem_insert_of_mem hx)

/-- The information passed up by a full depression. -/
def InfoOk (n0 : Nat) (dep : Nat → Dep E) (d : Nat) (i : SubInfo) : Prop :=
  ∃ l, i.leaf = some l ∧ l < n0 ∧ Anc dep l d ∧ ∀ x, i.labs x = true ↔ Anc dep x d

/-- What a call of `FindDepressionsToFill` for `d` does. -/
def FillSpec (w h : Nat) (dem : Cell → E) (label : Cell → Option Nat) (n0 n : Nat) (dep : Nat → Dep E) (eps : E)
    (W : Nat → E) (P : Finset Nat) (d : Nat) (r : FRes (SubInfo × (Cell → E))) : Prop :=
  ∃ i wtd', r = .ok (i, wtd') ∧ SpreadInv w h dem label n dep eps W (P ∪ underSet n dep d) wtd' ∧
    (d ≠ 0 → W d ≠ 0 → ¬ TopWet n dep W d → InfoOk n0 dep d i)

/-- The calls for the ocean-linked depressions. -/
theorem fills_spec (T : FlowTree n0 n dep) {eps : E} {call : Nat → (Cell → E) → FRes (SubInfo × (Cell → E))} {d : Nat}
    (hd : d < n)
    (hcall : ∀ c P wtd, c < n → (dep c).parent = some d → SpreadInv w h dem label n dep eps W P wtd →
      Disjoint P (underSet n dep c) → FillSpec w h dem label n0 n dep eps W P c (call c wtd)) :
    ∀ (cs : List Nat), cs.Nodup → (∀ c ∈ cs, c < n ∧ (dep c).parent = some d) → ∀ P wtd,
      SpreadInv w h dem label n dep eps W P wtd → (∀ c ∈ cs, Disjoint P (underSet n dep c)) →
      ∃ wtd', cs.foldl (fun (r : FRes (Cell → E)) c => r.bind fun wtd => (call c wtd).bind fun x => .ok x.2) (.ok wtd) =
        .ok wtd' ∧ SpreadInv w h dem label n dep eps W (P ∪ cs.toFinset.biUnion (underSet n dep)) wtd' := by
  intro cs
  induction cs with
  | nil =>
    intro _ _ P wtd I _
    exact ⟨wtd, rfl, by simpa using I⟩
  | cons c cs ih =>
    intro hnd hcs P wtd I hP
    obtain ⟨hc, hnd⟩ := List.nodup_cons.1 hnd
    obtain ⟨c1, c2⟩ := hcs c (by simp)
    obtain ⟨i, wtd1, e1, I1, _⟩ := hcall c P wtd c1 c2 I (hP c (by simp))
    obtain ⟨wtd2, e2, I2⟩ := ih hnd (fun x hx => hcs x (by simp [hx])) (P ∪ underSet n dep c) wtd1 I1 (by
      intro x hx
      rw [Finset.disjoint_union_left]
      refine ⟨hP x (by simp [hx]), T.under_disjoint hd c2 (hcs x (by simp [hx])).2 ?_⟩
      rintro rfl; exact hc hx)
    refine ⟨wtd2, ?_, ?_⟩
    · rw [List.foldl_cons]
      show List.foldl _ ((call c wtd).bind fun x => FRes.ok x.2) cs = _
      rw [e1]; exact e2
    · have : P ∪ (c :: cs).toFinset.biUnion (underSet n dep) =
          P ∪ underSet n dep c ∪ cs.toFinset.biUnion (underSet n dep) := by
        rw [List.toFinset_cons, Finset.biUnion_insert, Finset.union_assoc]
      rw [this]; exact I2

omit [Field E] [IsStrictOrderedRing E] in
theorem FlowTree.under_step (T : FlowTree n0 n dep) {d : Nat} (hd : d < n) :
    underSet n dep d = insert d (((dep d).oceanLinked ++ (dep d).lchild.toList ++ (dep d).rchild.toList).toFinset.biUnion
      (underSet n dep)) := by
  obtain ⟨_, hmem⟩ := T.calls hd
  ext x
  rw [Finset.mem_insert, Finset.mem_biUnion, mem_underSet]
  constructor
  · rintro ⟨h1, h2⟩
    rcases AncU.last h2 with h | ⟨k, h3, h4⟩
    · exact Or.inl h
    · right
      have hk : k < n := by
        rcases AncU.last h3 with h | ⟨k', _, h6⟩
        · omega
        · change (dep k').parent = some k at h6
          by_cases ho : (dep k').oceanParent = true
          · have := (T.ocp k' k h6 ho).2.1
            have := T.le; omega
          · exact (T.up k' k (upOf_eq.2 ⟨h6, by simpa using ho⟩)).2.1
      exact ⟨k, List.mem_toFinset.2 ((hmem k).2 ⟨hk, h4⟩), mem_underSet.2 ⟨h1, h3⟩⟩
  · rintro (h | ⟨k, h3, h4⟩)
    · subst h; exact ⟨hd, .refl _⟩
    · obtain ⟨k1, k2⟩ := (hmem k).1 (List.mem_toFinset.1 h3)
      rw [mem_underSet] at h4
      exact ⟨h4.1, AncU.trans h4.2 (.step k2 (.refl _))⟩

omit [IsStrictOrderedRing E] in
theorem SpreadInv.insert {eps : E} {P : Finset Nat} {wtd : Cell → E} {d : Nat}
    (I : SpreadInv w h dem label n dep eps W P wtd) (hd : ¬ TopWet n dep W d) :
    SpreadInv w h dem label n dep eps W (Insert.insert d P) wtd := by
  refine ⟨fun x hx hxt => ?_, fun c hc hno => I.dry c hc fun x hx => hno x (Finset.mem_insert_of_mem hx)⟩
  rcases Finset.mem_insert.1 hx with rfl | hx
  · exact absurd hxt hd
  · exact I.wet x hx hxt

/-- `FindDepressionsToFill` returns, having treated all depressions below the one it was called for. -/
theorem findFill_spec (pq : PQ (E × Cell) zLt) (G : Geo w h dem label n0 n dep pit vol) (K : WetTree n0 n dep vol W)
    {eps : E} (heps : 0 < eps) : ∀ (f d : Nat) (P : Finset Nat) (wtd : Cell → E), d < n →
      (underSet n dep d).card ≤ f → SpreadInv w h dem label n dep eps W P wtd → Disjoint P (underSet n dep d) →
      FillSpec w h dem label n0 n dep eps W P d (findFill pq w h dem label n dep vol W eps f d wtd) := by
  classical
  intro f
  induction f with
  | zero =>
    intro d P wtd hd hf _ _
    have : 0 < (underSet n dep d).card := Finset.card_pos.2 ⟨d, mem_underSet.2 ⟨hd, .refl _⟩⟩
    omega
  | succ f ih =>
    intro d P wtd hd hf I hP
    have T := G.T
    obtain ⟨hnd, hmem⟩ := T.calls hd
    have hcall : ∀ c P wtd, c < n → (dep c).parent = some d → SpreadInv w h dem label n dep eps W P wtd →
        Disjoint P (underSet n dep c) →
        FillSpec w h dem label n0 n dep eps W P c (findFill pq w h dem label n dep vol W eps f c wtd) := by
      intro c P wtd c1 c2 I hP
      have := T.under_card hd c2
      exact ih c P wtd c1 (by omega) I hP
    have hself : d ∈ underSet n dep d := mem_underSet.2 ⟨hd, .refl _⟩
    have hsub : ∀ c, (dep c).parent = some d → underSet n dep c ⊆ underSet n dep d := by
      intro c hc x hx
      rw [mem_underSet] at hx ⊢
      exact ⟨hx.1, AncU.trans hx.2 (.step hc (.refl _))⟩
    have hnself : ∀ c, (dep c).parent = some d → d ∉ underSet n dep c := by
      intro c hc hx
      have h1 := T.under_card hd hc
      have : underSet n dep d ⊆ underSet n dep c := by
        intro y hy
        rw [mem_underSet] at hx hy ⊢
        exact ⟨hy.1, AncU.trans hy.2 hx.2⟩
      have := Finset.card_le_card this
      omega
    have hol : ∀ c ∈ (dep d).oceanLinked, c < n ∧ (dep c).parent = some d := fun c hc => (hmem c).1 (by simp [hc])
    obtain ⟨wtd1, e1, I1⟩ := fills_spec T hd hcall (dep d).oceanLinked (T.nd d) hol P wtd I (fun c hc =>
      hP.mono_right (hsub c (hol c hc).2))
    have hall := T.under_step hd
    unfold findFill
    rw [if_neg (not_not.2 hd), e1]
    show FillSpec w h dem label n0 n dep eps W P d (if d = 0 then _ else _)
    set OL := (dep d).oceanLinked.toFinset.biUnion (underSet n dep) with hOL
    have hOLself : d ∉ OL := by
      intro hx
      obtain ⟨c, hc, hx⟩ := Finset.mem_biUnion.1 hx
      exact hnself c (hol c (List.mem_toFinset.1 hc)).2 hx
    have hOLkid : ∀ c, (dep c).parent = some d → (dep c).oceanParent = false → Disjoint OL (underSet n dep c) := by
      intro c hc ho
      rw [hOL, Finset.disjoint_biUnion_left]
      intro x hx
      have hx := List.mem_toFinset.1 hx
      refine T.under_disjoint hd (hol x hx).2 hc ?_
      rintro rfl
      have := (T.lk d x hx).2
      rw [ho] at this; cases this
    by_cases hdz : d = 0
    · rw [if_pos hdz]
      subst hdz
      refine ⟨_, _, rfl, ?_, fun h => absurd rfl h⟩
      have hl := T.leaf 0 (by have := T.pos; omega)
      rw [hall, hl.1, hl.2]
      simp only [Option.toList_none, List.append_nil]
      rw [← hOL, Finset.union_insert]
      exact I1.insert fun h => h.2.1 rfl
    · rw [if_neg hdz]
      -- the end of the call
      have fin : ∀ (L R : SubInfo) (wtd2 : Cell → E) (Q : Finset Nat), SpreadInv w h dem label n dep eps W Q wtd2 → d ∉ Q →
          insert d Q = P ∪ underSet n dep d →
          (W d ≠ 0 → InfoOk n0 dep d (SubInfo.join d L R)) →
          FillSpec w h dem label n0 n dep eps W P d (fillSelf pq w h dem label n dep vol W eps d L R wtd2) := by
        intro L R wtd2 Q J hQ hPQ hInfo
        unfold fillSelf
        simp only
        rw [if_neg (not_lt.2 (K.le d hd hdz)), K.fillNow T hd hdz]
        by_cases hw : W d = 0
        · have : decide (W d = 0 ∨ TopWet n dep W d) = true := decide_eq_true (Or.inl hw)
          rw [this]
          refine ⟨SubInfo.none, wtd2, ?_, ?_, fun _ h => absurd hw h⟩
          · show FRes.bind _ _ = _
            unfold fillAt
            rw [if_pos hw]; rfl
          · rw [← hPQ]; exact J.insert fun h => h.2.2.1 hw
        · obtain ⟨l, i1, i2, i3, i4⟩ := hInfo hw
          by_cases ht : TopWet n dep W d
          · have : decide (W d = 0 ∨ TopWet n dep W d) = true := decide_eq_true (Or.inr ht)
            rw [this]
            obtain ⟨wtd', e, J'⟩ := G.fill pq K heps J ht hQ i2 i3 i4
            refine ⟨SubInfo.none, wtd', ?_, ?_, fun _ _ h => absurd ht h⟩
            · show FRes.bind _ _ = _
              rw [i1]
              show FRes.bind (fillAt pq w h dem label eps (dep l).pit _ _ _ _) _ = _
              rw [e]; rfl
            · rw [← hPQ]; exact J'
          · have : decide (W d = 0 ∨ TopWet n dep W d) = false := decide_eq_false (by tauto)
            rw [this]
            refine ⟨_, _, rfl, ?_, fun _ _ _ => ⟨l, i1, i2, i3, i4⟩⟩
            rw [← hPQ]; exact J.insert ht
      by_cases hln : d < n0
      · obtain ⟨hl1, hl2⟩ := T.leaf d hln
        rw [hl1, hl2]
        show FillSpec w h dem label n0 n dep eps W P d (fillSelf pq w h dem label n dep vol W eps d _ _ _)
        refine fin _ _ _ (P ∪ OL) I1 ?_ ?_ ?_
        · rw [Finset.mem_union, not_or]
          exact ⟨fun hx => Finset.disjoint_left.1 hP hx hself, hOLself⟩
        · rw [hall, hl1, hl2]
          simp only [Option.toList_none, List.append_nil]
          rw [← hOL, Finset.union_insert]
        · intro _
          refine ⟨d, rfl, hln, .refl _, fun x => ?_⟩
          simp only [SubInfo.join, SubInfo.none, Bool.or_false, decide_eq_true_iff]
          constructor
          · rintro rfl; exact .refl _
          · intro hx; exact T.anc_leaf hx hln
      · obtain ⟨a, b, k1, k2, k3, k4, k5, k6, k7, k8, k9, k10⟩ := T.kids d (by omega) hd
        obtain ⟨pa, oa⟩ := upOf_eq.1 k8
        obtain ⟨pb, ob⟩ := upOf_eq.1 k9
        have hPa : Disjoint (P ∪ OL) (underSet n dep a) :=
          Finset.disjoint_union_left.2 ⟨hP.mono_right (hsub a pa), hOLkid a pa oa⟩
        obtain ⟨ia, wtd2, e2, I2, J2⟩ := hcall a _ _ (by omega) pa I1 hPa
        have hPb : Disjoint (P ∪ OL ∪ underSet n dep a) (underSet n dep b) :=
          Finset.disjoint_union_left.2 ⟨Finset.disjoint_union_left.2 ⟨hP.mono_right (hsub b pb), hOLkid b pb ob⟩,
            T.under_disjoint hd pa pb k3⟩
        obtain ⟨ib, wtd3, e3, I3, J3⟩ := hcall b _ _ (by omega) pb I2 hPb
        rw [k1, k2]
        show FillSpec w h dem label n0 n dep eps W P d ((findFill pq w h dem label n dep vol W eps f a wtd1).bind _)
        rw [e2]
        show FillSpec w h dem label n0 n dep eps W P d ((findFill pq w h dem label n dep vol W eps f b wtd2).bind _)
        rw [e3]
        show FillSpec w h dem label n0 n dep eps W P d (fillSelf pq w h dem label n dep vol W eps d _ _ _)
        refine fin _ _ _ _ I3 ?_ ?_ ?_
        · simp only [Finset.mem_union, not_or]
          exact ⟨⟨⟨fun hx => Finset.disjoint_left.1 hP hx hself, hOLself⟩, hnself a pa⟩, hnself b pb⟩
        · rw [hall, k1, k2]
          ext x
          simp only [hOL, Option.toList_some, List.toFinset_append, List.toFinset_cons, List.toFinset_nil,
            Finset.mem_insert, Finset.mem_union, Finset.mem_biUnion, List.mem_toFinset, insert_empty_eq,
            Finset.mem_singleton]
          constructor
          · rintro (h | ((h | ⟨c, h1, h2⟩) | h) | h)
            · exact Or.inr (Or.inl h)
            · exact Or.inl h
            · exact Or.inr (Or.inr ⟨c, Or.inl (Or.inl h1), h2⟩)
            · exact Or.inr (Or.inr ⟨a, Or.inl (Or.inr rfl), h⟩)
            · exact Or.inr (Or.inr ⟨b, Or.inr rfl, h⟩)
          · rintro (h | h | ⟨c, (h1 | h1) | h1, h2⟩)
            · exact Or.inr (Or.inl (Or.inl (Or.inl h)))
            · exact Or.inl h
            · exact Or.inr (Or.inl (Or.inl (Or.inr ⟨c, h1, h2⟩)))
            · subst h1; exact Or.inr (Or.inl (Or.inr h2))
            · subst h1; exact Or.inr (Or.inr h2)
        · intro hw
          have hnt : ∀ c, upOf dep c = some d → ¬ TopWet n dep W c := fun c hc ht => hw (ht.2.2.2 d hc)
          have hwk : ∀ c, c < n → upOf dep c = some d → W c ≠ 0 := fun c hc hu =>
            K.below T (.step hu (.refl _)) hc hw
          obtain ⟨l, i1, i2, i3, i4⟩ := J2 k6 (hwk a (by omega) k8) (hnt a k8)
          obtain ⟨_, _, _, _, i4'⟩ := J3 k7 (hwk b (by omega) k9) (hnt b k9)
          refine ⟨l, ?_, i2, AncU.trans i3 (.step k8 (.refl _)), fun x => ?_⟩
          · simp [SubInfo.join, i1]
          · simp only [SubInfo.join, Bool.or_eq_true, decide_eq_true_iff, i4, i4']
            constructor
            · rintro ((rfl | hx) | hx)
              · exact .refl _
              · exact AncU.trans hx (.step k8 (.refl _))
              · exact AncU.trans hx (.step k9 (.refl _))
            · intro hx
              by_cases hxd : x = d
              · exact Or.inl (Or.inl hxd)
              · rcases T.anc_kids hx hxd k1 k2 with hx | hx
                · exact Or.inl (Or.inr hx)
                · exact Or.inr hx

end RichDEM
