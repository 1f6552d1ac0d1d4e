/-
Model of `FindDepressionsToFill` and of the whole `FillSpillMerge`
(include/richdem/depressions/fill_spill_merge.hpp:125-186,602-733).
-/
import Verif.DepHier.MoveTotal
import Verif.DepHier.Pits
import Verif.Props.Lake

namespace RichDEM

variable {E : Type} [Field E] [LinearOrder E]

/-- fill_spill_merge.hpp:607-622: `SubtreeDepressionInfo` (the top label is always the depression the
function was called for). -/
structure SubInfo where
  leaf : Option Nat
  labs : Nat → Bool

/-- `SubtreeDepressionInfo()`. -/
def SubInfo.none : SubInfo := ⟨Option.none, fun _ => false⟩

/-- fill_spill_merge.hpp:683-692: `combined`. -/
def SubInfo.join (d : Nat) (L R : SubInfo) : SubInfo :=
  ⟨some (L.leaf.getD d), fun x => decide (x = d) || L.labs x || R.labs x⟩

/-- fill_spill_merge.hpp:706: is the depression to be filled now?  `none`: `deps.at` throws. -/
def fillNow (n : Nat) (dep : Nat → Dep E) (vol water : Nat → E) (d : Nat) : Option Bool :=
  if water d < vol d ∨ (dep d).oceanParent = true then some true
  else if water d = vol d then
    match (dep d).parent with
    | Option.none => Option.none
    | some p => if p < n then some (decide (water p = 0)) else Option.none
  else some false

/-- fill_spill_merge.hpp:714-722,791-793: the call of `FillDepressions`, which returns at once when there
is no water.  `w*h+2` iterations are enough for its loop (C65). -/
def fillAt (pq : PQ (E × Cell) zLt) (w h : Nat) (dem : Cell → E) (label : Cell → Option Nat) (eps : E)
    (pit out : Option Cell) (labs : Nat → Bool) (v : E) (wtd : Cell → E) : FRes (Cell → E) :=
  if v = 0 then .ok wtd
  else match pit, out with
    | some p, some o => fillDep pq w h dem label labs eps (w * h + 2) p o v wtd
    | _, _ => .fail

/-- fill_spill_merge.hpp:655-657: a missing child. -/
def visitOpt (call : Nat → (Cell → E) → FRes (SubInfo × (Cell → E))) (c : Option Nat) (wtd : Cell → E) :
    FRes (SubInfo × (Cell → E)) :=
  match c with
  | Option.none => .ok (SubInfo.none, wtd)
  | some c => call c wtd

/-- fill_spill_merge.hpp:694-729: after the children. -/
def fillSelf (pq : PQ (E × Cell) zLt) (w h : Nat) (dem : Cell → E) (label : Cell → Option Nat) (n : Nat)
    (dep : Nat → Dep E) (vol water : Nat → E) (eps : E) (d : Nat) (L R : SubInfo) (wtd : Cell → E) :
    FRes (SubInfo × (Cell → E)) :=
  let I := SubInfo.join d L R
  if vol d < water d then .fail
  else match fillNow n dep vol water d with
    | Option.none => .fail
    | some false => .ok (I, wtd)
    | some true =>
      (fillAt pq w h dem label eps (dep (I.leaf.getD d)).pit (dep d).outCell I.labs (water d) wtd).bind
        fun wtd => .ok (SubInfo.none, wtd)

/-- fill_spill_merge.hpp:648-730: `FindDepressionsToFill`, at most `f` nested calls. -/
def findFill (pq : PQ (E × Cell) zLt) (w h : Nat) (dem : Cell → E) (label : Cell → Option Nat) (n : Nat)
    (dep : Nat → Dep E) (vol water : Nat → E) (eps : E) :
    Nat → Nat → (Cell → E) → FRes (SubInfo × (Cell → E))
  | 0, _, _ => .deep
  | f + 1, d, wtd =>
    if ¬ d < n then .fail
    else
      ((dep d).oceanLinked.foldl (fun (r : FRes (Cell → E)) c => r.bind fun wtd =>
          (findFill pq w h dem label n dep vol water eps f c wtd).bind fun x => .ok x.2) (.ok wtd)).bind fun wtd =>
      if d = 0 then .ok (SubInfo.none, wtd)
      else
        (visitOpt (findFill pq w h dem label n dep vol water eps f) (dep d).lchild wtd).bind fun L =>
        (visitOpt (findFill pq w h dem label n dep vol water eps f) (dep d).rchild L.2).bind fun R =>
        fillSelf pq w h dem label n dep vol water eps d L.1 R.1 R.2

/-- fill_spill_merge.hpp:163-169: one depression passes the sanity checks. -/
def sanityAt (dep : Nat → Dep E) (vol water : Nat → E) (d : Nat) : Bool :=
  let kid := fun (c : Option Nat) => match c with
    | Option.none => false
    | some c => decide (water c < water d)
  decide (water d = 0 ∨ water d ≤ vol d) &&
  (decide (water d = 0) || (decide ((dep d).lchild = Option.none) && decide ((dep d).rchild = Option.none)) ||
    kid (dep d).lchild) &&
  (decide (water d = 0) || (decide ((dep d).lchild = Option.none) && decide ((dep d).rchild = Option.none)) ||
    kid (dep d).rchild)

/-- The results of `FillSpillMerge`: the water tables and the depressions' water. -/
structure FSMOut (E : Type) where
  wtd : Cell → E
  water : Nat → E

/-- fill_spill_merge.hpp:125-186: `FillSpillMerge`; `f` bounds the depth of the recursions. -/
def fillSpillMerge (q : AnyQ Cell) (pq : PQ (E × Cell) zLt) (w h : Nat) (dem : Cell → E)
    (label : Cell → Option Nat) (fd : Cell → Nat) (n : Nat) (dep : Nat → Dep E) (vol : Nat → E) (eps : E) (f : Nat)
    (wtd : Cell → E) : FRes (FSMOut E) :=
  let s := movePits q w h fd (labelOf label) wtd (fun _ => 0)
  (moveWater n dep vol eps f 0 ⟨s.water, fun _ => Option.none⟩).bind fun m =>
  if (List.range n).all (fun d => decide (d = 0) || sanityAt dep vol m.water d) = false then .fail
  else (findFill pq w h dem label n dep vol m.water eps f 0 s.wtd).bind fun x => .ok ⟨x.2, m.water⟩

/-! ### Paths inside a depression -/

variable {w h : Nat} {dem : Cell → E}

/-- A path through cells of `S` not above `m`. -/
inductive InConn (w h : Nat) (dem : Cell → E) (S : Cell → Prop) (m : E) : Cell → Cell → Prop
  | refl {a} : InGrid w h a → S a → dem a ≤ m → InConn w h dem S m a a
  | step {a b c} : InGrid w h a → S a → dem a ≤ m → Adj .D8 a b → InConn w h dem S m b c → InConn w h dem S m a c

omit [Field E] in
theorem InConn.left {S : Cell → Prop} {m : E} {a b : Cell} (h1 : InConn w h dem S m a b) :
    InGrid w h a ∧ S a ∧ dem a ≤ m := by cases h1 <;> exact ⟨‹_›, ‹_›, ‹_›⟩

omit [Field E] in
theorem InConn.trans {S : Cell → Prop} {m : E} {a b c : Cell} (h1 : InConn w h dem S m a b)
    (h2 : InConn w h dem S m b c) : InConn w h dem S m a c := by
  induction h1 with
  | refl => exact h2
  | step a1 a2 a3 a4 _ ih => exact .step a1 a2 a3 a4 (ih h2)

omit [Field E] in
theorem InConn.symm {S : Cell → Prop} {m : E} {a b : Cell} (h1 : InConn w h dem S m a b) :
    InConn w h dem S m b a := by
  induction h1 with
  | refl a1 a2 a3 => exact .refl a1 a2 a3
  | step a1 a2 a3 a4 h ih =>
    obtain ⟨b1, b2, b3⟩ := h.left
    exact ih.trans (.step b1 b2 b3 a4.symm (.refl a1 a2 a3))

omit [Field E] in
theorem InConn.right {S : Cell → Prop} {m : E} {a b : Cell} (h1 : InConn w h dem S m a b) :
    InGrid w h b ∧ S b ∧ dem b ≤ m := h1.symm.left

omit [Field E] in
theorem InConn.mono {S S' : Cell → Prop} {m m' : E} (hS : ∀ c, S c → S' c) (hm : m ≤ m') {a b : Cell}
    (h1 : InConn w h dem S m a b) : InConn w h dem S' m' a b := by
  induction h1 with
  | refl a1 a2 a3 => exact .refl a1 (hS _ a2) (a3.trans hm)
  | step a1 a2 a3 a4 _ ih => exact .step a1 (hS _ a2) (a3.trans hm) a4 ih

/-- What the filling needs to know about the terrain, the labels and the hierarchy. -/
structure Geo (w h : Nat) (dem : Cell → E) (label : Cell → Option Nat) (n0 n : Nat) (dep : Nat → Dep E)
    (pit : Nat → Cell) (vol : Nat → E) : Prop where
  T : FlowTree n0 n dep
  lab : ∀ c, InGrid w h c → ∃ l, label c = some l ∧ l < n0
  down : ∀ c l, label c = some l → l ≠ 0 → InConn w h dem (fun q => label q = some l) (dem c) c (pit l)
  pits : ∀ l, l ≠ 0 → l < n0 → label (pit l) = some l ∧ InGrid w h (pit l) ∧ (dep l).pit = some (pit l)
  spill : ∀ d z, d < n → d ≠ 0 → (dep d).outElev = some z →
    (∀ u v, Adj .D8 u v → InGrid w h u → InGrid w h v → InDep label dep d u → ¬ InDep label dep d v →
      z ≤ max (dem u) (dem v)) ∧
    ∃ u v e, Adj .D8 u v ∧ InGrid w h u ∧ InGrid w h v ∧ InDep label dep d u ∧ ¬ InDep label dep d v ∧
      z = max (dem u) (dem v) ∧ (dep d).outCell = some e ∧ (e = u ∨ e = v) ∧ dem e = z
  pass : ∀ d a b, d < n → (dep d).lchild = some a → (dep d).rchild = some b →
    ∃ u v, Adj .D8 u v ∧ InGrid w h u ∧ InGrid w h v ∧ InDep label dep a u ∧ InDep label dep b v ∧
      (dep a).outElev = some (max (dem u) (dem v))
  vols : ∀ d, d < n → d ≠ 0 → ∃ (z : E) (S : Finset Cell), (dep d).outElev = some z ∧
    (∀ c, c ∈ S ↔ InGrid w h c ∧ InDep label dep d c ∧ dem c ≤ z) ∧ vol d = S.sum (fun c => z - dem c)

variable {label : Cell → Option Nat} {n0 n : Nat} {dep : Nat → Dep E} {pit : Nat → Cell} {vol : Nat → E}

/-- The elevation up to which a depression is full when its children are. -/
def FullAt (dem : Cell → E) (dep : Nat → Dep E) (n0 : Nat) (pit : Nat → Cell) (x : Nat) (m : E) : Prop :=
  (x < n0 ∧ m = dem (pit x)) ∨ (n0 ≤ x ∧ ∃ a, (dep x).lchild = some a ∧ (dep a).outElev = some m)

omit [Field E] in
theorem DepTree.anc_leaf (T : DepTree n0 n dep) {l x : Nat} (h : Anc dep l x) (hx : x < n0) : l = x := by
  rcases AncU.last h with h | ⟨k, _, h2⟩
  · exact h
  · have := (T.up k x h2).2.2.1; omega

omit [Field E] in
theorem DepTree.anc_kids (T : DepTree n0 n dep) {l x a b : Nat} (h : Anc dep l x) (hne : l ≠ x)
    (ha : (dep x).lchild = some a) (hb : (dep x).rchild = some b) : Anc dep l a ∨ Anc dep l b := by
  rcases AncU.last h with h | ⟨k, h1, h2⟩
  · exact absurd h hne
  · rcases (T.up k x h2).2.2.2 with h3 | h3
    · rw [ha] at h3; cases h3; exact Or.inl h1
    · rw [hb] at h3; cases h3; exact Or.inr h1

omit [Field E] in
theorem AncU.ne_zero (T : DepTree n0 n dep) {l x : Nat} (h : Anc dep l x) (hx : x ≠ 0) : l ≠ 0 := by
  rintro rfl; exact hx (T.anc_zero h)

theorem Geo.full_exists (G : Geo w h dem label n0 n dep pit vol) {x : Nat} (hx : x < n) :
    ∃ m, FullAt dem dep n0 pit x m := by
  by_cases h : x < n0
  · exact ⟨_, Or.inl ⟨h, rfl⟩⟩
  · obtain ⟨a, b, k1, _, _, k4, _, k6, _⟩ := G.T.kids x (by omega) hx
    obtain ⟨z, hz⟩ := G.T.elev a (by omega) k6
    exact ⟨z, Or.inr ⟨by omega, a, k1, hz⟩⟩

theorem Geo.low_pit (G : Geo w h dem label n0 n dep pit vol) {c : Cell} {l : Nat} (hc : label c = some l)
    (hl : l ≠ 0) : dem (pit l) ≤ dem c := (G.down c l hc hl).right.2.2

theorem Geo.full_le (G : Geo w h dem label n0 n dep pit vol) {x : Nat} {m z : E} (hx : x < n) (h0 : x ≠ 0)
    (hm : FullAt dem dep n0 pit x m) (hz : (dep x).outElev = some z) : m ≤ z := by
  rcases hm with ⟨h1, rfl⟩ | ⟨h1, a, h2, h3⟩
  · obtain ⟨_, u, v, e, _, _, _, ⟨l, k1, k2⟩, _, k3, _⟩ := G.spill x z hx h0 hz
    obtain rfl := G.T.anc_leaf k2 h1
    exact (G.low_pit k1 h0).trans (by rw [k3]; exact le_max_left _ _)
  · obtain ⟨a', b, k1, _, _, _, _, _, _, k8, _⟩ := G.T.kids x h1 hx
    rw [h2] at k1; cases k1
    exact G.T.mono a x m z k8 h3 hz

/-- All pits of a depression are connected inside it without exceeding the level up to which its
children are full. -/
theorem Geo.pits_conn (G : Geo w h dem label n0 n dep pit vol) : ∀ (x : Nat) (m : E), x < n → x ≠ 0 →
    FullAt dem dep n0 pit x m → ∀ l l', l < n0 → l' < n0 → Anc dep l x → Anc dep l' x →
    InConn w h dem (InDep label dep x) m (pit l) (pit l') := by
  intro x
  induction x using Nat.strongRecOn with
  | _ x ih =>
    intro m hx h0 hm l l' hl hl' hal hal'
    rcases hm with ⟨h1, rfl⟩ | ⟨h1, a, ha, hza⟩
    · obtain rfl := G.T.anc_leaf hal h1
      obtain rfl := G.T.anc_leaf hal' h1
      obtain ⟨p1, p2, _⟩ := G.pits l' h0 h1
      exact .refl p2 ⟨l', p1, .refl _⟩ le_rfl
    · obtain ⟨a', b, k1, k2, k3, k4, k5, k6, k7, k8, k9, k10⟩ := G.T.kids x h1 hx
      rw [ha] at k1; cases k1
      obtain ⟨u, v, g1, g2, g3, ⟨lu, g4, g4'⟩, ⟨lv, g5, g5'⟩, g6⟩ := G.pass x a b hx ha k2
      rw [hza] at g6; cases g6
      have hzb : (dep b).outElev = some (max (dem u) (dem v)) := by rw [← k10]; exact hza
      have hla : ∀ c, InDep label dep a c → InDep label dep x c := fun c ⟨l, h1, h2⟩ =>
        ⟨l, h1, AncU.trans h2 (.step k8 (.refl _))⟩
      have hlb : ∀ c, InDep label dep b c → InDep label dep x c := fun c ⟨l, h1, h2⟩ =>
        ⟨l, h1, AncU.trans h2 (.step k9 (.refl _))⟩
      obtain ⟨ma, hma⟩ := G.full_exists (show a < n by omega)
      obtain ⟨mb, hmb⟩ := G.full_exists (show b < n by omega)
      have A : ∀ l l', l < n0 → l' < n0 → Anc dep l a → Anc dep l' a →
          InConn w h dem (InDep label dep x) (max (dem u) (dem v)) (pit l) (pit l') := fun l l' q1 q2 q3 q4 =>
        (ih a k4 ma (by omega) k6 hma l l' q1 q2 q3 q4).mono hla (G.full_le (by omega) k6 hma hza)
      have B : ∀ l l', l < n0 → l' < n0 → Anc dep l b → Anc dep l' b →
          InConn w h dem (InDep label dep x) (max (dem u) (dem v)) (pit l) (pit l') := fun l l' q1 q2 q3 q4 =>
        (ih b k5 mb (by omega) k7 hmb l l' q1 q2 q3 q4).mono hlb (G.full_le (by omega) k7 hmb hzb)
      have hlu : lu < n0 := by
        obtain ⟨l, e1, e2⟩ := G.lab u g2
        rw [g4] at e1; cases e1; exact e2
      have hlv : lv < n0 := by
        obtain ⟨l, e1, e2⟩ := G.lab v g3
        rw [g5] at e1; cases e1; exact e2
      have U : InConn w h dem (InDep label dep x) (max (dem u) (dem v)) u (pit lu) :=
        (G.down u lu g4 (AncU.ne_zero G.T.toDepTree g4' k6)).mono (fun c hc => hla c ⟨lu, hc, g4'⟩) (le_max_left _ _)
      have V : InConn w h dem (InDep label dep x) (max (dem u) (dem v)) v (pit lv) :=
        (G.down v lv g5 (AncU.ne_zero G.T.toDepTree g5' k7)).mono (fun c hc => hlb c ⟨lv, hc, g5'⟩) (le_max_right _ _)
      have UV : InConn w h dem (InDep label dep x) (max (dem u) (dem v)) (pit lu) (pit lv) :=
        U.symm.trans (.step U.left.1 U.left.2.1 U.left.2.2 g1 V)
      have hk : ∀ l, l < n0 → Anc dep l x → Anc dep l a ∨ Anc dep l b := fun l hl hal =>
        G.T.anc_kids hal (by omega) ha k2
      rcases hk l hl hal with q | q <;> rcases hk l' hl' hal' with q' | q'
      · exact A l l' hl hl' q q'
      · exact (A l lu hl hlu q g4').trans (UV.trans (B lv l' hlv hl' g5' q'))
      · exact (B l lv hl hlv q g5').trans (UV.symm.trans (A lu l' hlu hl' g4' q'))
      · exact B l l' hl hl' q q'

end RichDEM
