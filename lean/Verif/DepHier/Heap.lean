/-
The flood phase of `GetDepressionHierarchy` with the `pair_radix_heap` it uses (depression_hierarchy.hpp:195-196, 372-386,
429-535): it never trips an assertion of the heap, and it is the flood of `Verif/DepHier/Flood.lean` with a queue that returns
equal elevations last in, first out.
-/
import Verif.DS.RadixLifo
import Verif.DepHier.Lifo

namespace RichDEM

section
variable {E : Type} [LinearOrder E]

/-- A stack from which the first of the least entries is taken. -/
def lifoPQ : PQ (E × Cell) (zLt (E := E)) where
  push e l := e :: l
  pop l := lifoPop l
  push_perm _ _ := List.Perm.refl _
  pop_nil := rfl
  pop_cons l hl := by
    cases hp : lifoPop l with
    | none => exact absurd (lifoPop_eq_none.1 hp) hl
    | some p =>
      obtain ⟨e, r⟩ := p
      obtain ⟨A, B, h1, h2, h3, h4⟩ := lifoPop_split hp
      refine ⟨e, r, rfl, ?_, ?_⟩
      · rw [h1, h2]; exact List.perm_middle
      · intro f hf
        rw [h1, List.mem_append, List.mem_cons] at hf
        unfold zLt
        rw [not_lt]
        rcases hf with hf | rfl | hf
        · exact (h3 f hf).le
        · exact le_rfl
        · exact h4 f hf

theorem lifoPQ_lifo : (lifoPQ : PQ (E × Cell) (zLt (E := E))).Lifo where
  push _ _ := rfl
  pop _ _ _ h := by
    obtain ⟨A, B, h1, h2, h3, _⟩ := lifoPop_split h
    exact ⟨A, B, h1, h2, h3⟩

variable (enc : E → Nat) (dec : Nat → E) (W w h : Nat) (t : Topo) (dem : Cell → E) (oc : Cell → Bool)

/-- depression_hierarchy.hpp:378-386: queue the seeds.  `none`: an assertion of the heap fails. -/
def pushSeedsH : List Cell → RHeap Cell → Option (RHeap Cell)
  | [], hp => some hp
  | c :: cs, hp => (hp.push (enc (dem c)) c).bind (pushSeedsH cs)

/-- depression_hierarchy.hpp:472-533: one neighbour of the focal cell (`e`: its elevation and index). -/
def dhNbrH (e : E × Cell) (l : Nat) (s : DHS E × RHeap Cell) (n : Nat) : Option (DHS E × RHeap Cell) :=
  let q := nbr t e.2 n
  if inGrid w h q = false then some s
  else match s.1.label q with
    | none => (s.2.push (enc (dem q)) q).map fun hp =>
        ({ s.1 with label := Function.update s.1.label q (some l)
                    fd := Function.update s.1.fd q (dinverse t n) }, hp)
    | some m => if m = l then some s
        else some ({ s.1 with outs := dhOutlet dem e.1 e.2 q l m s.1.outs }, s.2)

/-- depression_hierarchy.hpp:472: all neighbours. -/
def dhNbrsH (e : E × Cell) (l : Nat) : List Nat → DHS E × RHeap Cell → Option (DHS E × RHeap Cell)
  | [], s => some s
  | n :: ns, s => (dhNbrH enc w h t dem e l s n).bind (dhNbrsH e l ns)

/-- depression_hierarchy.hpp:431-469: top, pop, label; `dec` is the decoder of `top_key()`. -/
def dhTurnH (s : DHS E × RHeap Cell) : Option (DHS E × RHeap Cell) :=
  (s.2.topValue W true).bind fun v => (v.2.topKey W true).bind fun k => (k.2.pop W true).bind fun hp =>
    let o := dhOpen v.1 s.1
    dhNbrsH enc w h t dem (dec k.1, v.1) o.1 (dirs t) (o.2, hp)

/-- depression_hierarchy.hpp:429: `while (!pq.empty())`. -/
def dhLoopH : Nat → DHS E × RHeap Cell → Option (DHS E × RHeap Cell)
  | 0, s => some s
  | f + 1, s => if s.2.size = 0 then some s else (dhTurnH enc dec W w h t dem s).bind (dhLoopH f)

/-- depression_hierarchy.hpp:312-535 with the radix heap of :195-196.  `none`: an assertion of the heap fails. -/
def dhFloodH : Option (DHS E) :=
  (pushSeedsH enc dem (oceanSeeds w h t oc) (RHeap.empty W)).bind fun hp =>
  (pushSeedsH enc dem (landSeeds w h t dem oc) hp).bind fun hp =>
  (dhLoopH enc dec W w h t dem (2 * (w * h))
    (⟨fun c => if inGrid w h c && oc c then some 0 else none, fun _ => 0, [], 1, fun _ => (0, 0), fun _ => none⟩, hp)).map (·.1)

variable {enc dec W w h t dem oc}

/-- The entry of a cell in the heap. -/
def encE (enc : E → Nat) (e : E × Cell) : Nat × Cell := (enc e.1, e.2)

theorem lifoPop_map (he : StrictMono enc) (l : List (E × Cell)) :
    lifoPop (l.map (encE enc)) = (lifoPop l).map fun p => (encE enc p.1, p.2.map (encE enc)) := by
  induction l with
  | nil => rfl
  | cons a l ih =>
    rw [List.map_cons]
    simp only [lifoPop]
    rw [ih]
    cases hp : lifoPop l with
    | none => simp
    | some p =>
      simp only [Option.map_some]
      by_cases hlt : p.1.1 < a.1
      · have : (encE enc p.1).1 < (encE enc a).1 := he hlt
        rw [if_pos hlt, if_pos this]; rfl
      · have : ¬ (encE enc p.1).1 < (encE enc a).1 := fun hc => hlt (he.lt_iff_lt.1 hc)
        rw [if_neg hlt, if_neg this]; rfl

/-- The heap version simulates the list version. -/
structure HeapSim (enc : E → Nat) (W : Nat) (last : Nat) (s : DHS E) (x : DHS E × RHeap Cell) : Prop where
  eq : x.1 = { s with q := [] }
  stk : RHeap.Stacked W x.2 (last, s.q.map (encE enc))

theorem pushSeedsH_sim (hW : ∀ z, enc z < 2 ^ W) (cs : List Cell) :
    ∀ (hp : RHeap Cell) (q : List (E × Cell)), RHeap.Stacked W hp (0, q.map (encE enc)) →
      ∃ hp', pushSeedsH enc dem cs hp = some hp' ∧
        RHeap.Stacked W hp' (0, (lifoPQ.pushAll (cs.map (fun c => (dem c, c))) q).map (encE enc)) := by
  induction cs with
  | nil => intro hp q R; exact ⟨hp, rfl, R⟩
  | cons c cs ih =>
    intro hp q R
    obtain ⟨hp1, e1, R1⟩ := (R.push (enc (dem c)) (hW _) c).1 (Nat.zero_le _)
    obtain ⟨hp2, e2, R2⟩ := ih hp1 ((dem c, c) :: q) R1
    exact ⟨hp2, by simp only [pushSeedsH, e1, Option.bind_some]; exact e2, R2⟩

theorem dhNbr_grow (pq : PQ (E × Cell) zLt) (e : E × Cell) (l : Nat) (ns : List Nat) :
    ∀ (s : DHS E) x, x ∈ s.q → x ∈ (ns.foldl (dhNbr pq w h t dem e l) s).q := by
  induction ns with
  | nil => intro s x hx; exact hx
  | cons n ns ih =>
    intro s x hx
    rw [List.foldl_cons]
    apply ih
    unfold dhNbr
    simp only
    split
    · exact hx
    · split
      · exact pq.mem_push.2 (Or.inr hx)
      · split
        · exact hx
        · exact hx

theorem dhNbrsH_sim (hW : ∀ z, enc z < 2 ^ W) (e : E × Cell) (l last : Nat) (ns : List Nat) :
    ∀ (s : DHS E) (x : DHS E × RHeap Cell), HeapSim enc W last s x →
      (∀ y ∈ (ns.foldl (dhNbr lifoPQ w h t dem e l) s).q, last ≤ enc y.1) →
      ∃ x', dhNbrsH enc w h t dem e l ns x = some x' ∧
        HeapSim enc W last (ns.foldl (dhNbr lifoPQ w h t dem e l) s) x' := by
  induction ns with
  | nil => intro s x R _; exact ⟨x, rfl, R⟩
  | cons n ns ih =>
    intro s x R hge
    rw [List.foldl_cons] at hge ⊢
    have one : ∃ x1, dhNbrH enc w h t dem e l x n = some x1 ∧ HeapSim enc W last (dhNbr lifoPQ w h t dem e l s n) x1 := by
      obtain ⟨d, hp⟩ := x
      obtain ⟨rfl, R⟩ := R
      simp only at R
      have hg := fun y hy => hge y (dhNbr_grow lifoPQ e l ns _ y hy)
      unfold dhNbrH
      unfold dhNbr at hg ⊢
      simp only at hg ⊢
      by_cases hin : inGrid w h (nbr t e.2 n) = false
      · rw [if_pos hin, if_pos hin]
        exact ⟨_, rfl, rfl, R⟩
      · rw [if_neg hin] at hg ⊢
        rw [if_neg hin]
        cases hq : s.label (nbr t e.2 n) with
        | none =>
          rw [hq] at hg
          simp only at hg ⊢
          have hle := hg (dem (nbr t e.2 n), nbr t e.2 n) (lifoPQ.mem_push.2 (Or.inl rfl))
          obtain ⟨hp1, e1, R1⟩ := (R.push (enc (dem (nbr t e.2 n))) (hW _) (nbr t e.2 n)).1 hle
          rw [e1]
          exact ⟨_, rfl, rfl, R1⟩
        | some m =>
          simp only
          by_cases hml : m = l
          · rw [if_pos hml, if_pos hml]; exact ⟨_, rfl, rfl, R⟩
          · rw [if_neg hml, if_neg hml]; exact ⟨_, rfl, rfl, R⟩
    obtain ⟨x1, e1, R1⟩ := one
    obtain ⟨x2, e2, R2⟩ := ih _ _ R1 hge
    exact ⟨x2, by simp only [dhNbrsH, e1, Option.bind_some]; exact e2, R2⟩

omit [LinearOrder E] in
theorem dhOpen_q (c : Cell) (s : DHS E) : (dhOpen c s).2.q = s.q := by
  unfold dhOpen; cases s.label c <;> rfl

omit [LinearOrder E] in
theorem dhOpen_strip (c : Cell) (s : DHS E) : dhOpen c { s with q := [] } = ((dhOpen c s).1, { (dhOpen c s).2 with q := [] }) := by
  unfold dhOpen; simp only; cases s.label c <;> rfl

theorem dhTurnH_sim (he : StrictMono enc) (hdec : ∀ z, dec (enc z) = z) (hW : ∀ z, enc z < 2 ^ W) {D : Cell → Prop}
    {s s' : DHS E} {x : DHS E × RHeap Cell} {last : Nat} (I : DHInv w h t dem oc D none s) (R : HeapSim enc W last s x)
    (hs : dhStep lifoPQ w h t dem s = some s') :
    ∃ last' x', dhTurnH enc dec W w h t dem x = some x' ∧ HeapSim enc W last' s' x' := by
  obtain ⟨⟨e, rest, hp, I'⟩, _⟩ := dhStep_inv' lifoPQ I hs
  unfold dhStep at hs
  rw [hp] at hs
  simp only [Option.some.injEq] at hs
  have hp' : lifoPop s.q = some (e, rest) := hp
  have hpe : lifoPop (s.q.map (encE enc)) = some (encE enc e, rest.map (encE enc)) := by
    rw [lifoPop_map he, hp']; rfl
  obtain ⟨d, hp0⟩ := x
  obtain ⟨rfl, R⟩ := R
  simp only at R
  rcases R.op .pop (fun _ _ hc => by cases hc) with ⟨k, _⟩ | ⟨a, st', hp3, k1, k2, R3⟩
  · simp [stackOp, hpe] at k
  · simp only [stackOp, hpe, Option.map_some, Option.some.injEq, Prod.mk.injEq] at k1
    obtain ⟨rfl, rfl⟩ := k1
    simp only [heapOp, Option.bind_eq_some_iff, Option.map_eq_some_iff] at k2
    obtain ⟨⟨v, hp1⟩, j1, ⟨k, hp2⟩, j2, hp3', j3, j4⟩ := k2
    simp only [Prod.mk.injEq, Option.some.injEq] at j4
    obtain ⟨j4, rfl⟩ := j4
    have jk : k = enc e.1 := congrArg Prod.fst j4
    have jv : v = e.2 := congrArg Prod.snd j4
    subst jk; subst jv
    simp only at j2 j3
    have hge : ∀ y ∈ s'.q, enc e.1 ≤ enc y.1 := by
      intro y hy
      have hez := (I.queued e (by
        obtain ⟨A, B, h1, _⟩ := lifoPop_split hp'
        rw [h1]; simp)).1
      have := I'.order e.2 (Or.inl (Or.inr rfl)) y hy
      rw [← hez] at this
      exact he.le_iff_le.2 this
    rw [← hs] at hge
    have R4 : HeapSim enc W (enc e.1) (dhOpen e.2 { s with q := rest }).2
        ({ (dhOpen e.2 { s with q := rest }).2 with q := [] }, hp3') := by
      refine ⟨rfl, ?_⟩
      rw [dhOpen_q]
      exact R3
    obtain ⟨x', e1, R5⟩ := dhNbrsH_sim hW e (dhOpen e.2 { s with q := rest }).1 (enc e.1) (dirs t) _ _ R4 hge
    refine ⟨enc e.1, x', ?_, hs ▸ R5⟩
    unfold dhTurnH
    simp only [j1, j2, j3, Option.bind_some, hdec]
    have : dhOpen e.2 { s with q := ([] : List (E × Cell)) } = ((dhOpen e.2 { s with q := rest }).1,
        { (dhOpen e.2 { s with q := rest }).2 with q := [] }) := dhOpen_strip e.2 { s with q := rest }
    rw [this]
    exact e1

theorem dhLoopH_sim (he : StrictMono enc) (hdec : ∀ z, dec (enc z) = z) (hW : ∀ z, enc z < 2 ^ W) (f : Nat) :
    ∀ (s : DHS E) (x : DHS E × RHeap Cell) (last : Nat) (D : Cell → Prop), DHInv w h t dem oc D none s →
      HeapSim enc W last s x →
      ∃ last' x', dhLoopH enc dec W w h t dem f x = some x' ∧ HeapSim enc W last' (loop (dhStep lifoPQ w h t dem) f s) x' := by
  induction f with
  | zero => intro s x last D _ R; exact ⟨last, x, rfl, R⟩
  | succ f ih =>
    intro s x last D I R
    have hsz : x.2.size = 0 ↔ s.q = [] := by
      rw [R.stk.inv.size, Multiset.card_eq_zero]
      constructor
      · intro h0
        by_contra hne
        obtain ⟨y, hy⟩ := List.exists_mem_of_ne_nil _ hne
        have := R.stk.mem.1 (List.mem_map_of_mem (f := encE enc) hy)
        rw [h0] at this; simp at this
      · intro h0
        rw [Multiset.eq_zero_iff_forall_notMem]
        intro y hy
        have := R.stk.mem.2 hy
        rw [h0] at this; simp at this
    simp only [dhLoopH, loop]
    by_cases hq : s.q = []
    · rw [if_pos (hsz.2 hq)]
      have : dhStep lifoPQ w h t dem s = none := by
        unfold dhStep; rw [hq]; rfl
      rw [this]
      exact ⟨last, x, rfl, R⟩
    · rw [if_neg (fun h0 => hq (hsz.1 h0))]
      have : ∃ s', dhStep lifoPQ w h t dem s = some s' := by
        obtain ⟨e, r, h1, _⟩ := (lifoPQ (E := E)).pop_cons s.q hq
        unfold dhStep
        rw [h1]
        exact ⟨_, rfl⟩
      obtain ⟨s', hs⟩ := this
      rw [hs]
      obtain ⟨⟨e, rest, _, I'⟩, _⟩ := dhStep_inv' lifoPQ I hs
      obtain ⟨last1, x1, e1, R1⟩ := dhTurnH_sim he hdec hW I R hs
      rw [e1]
      exact ih s' x1 last1 _ I' R1

/-- The radix heap is a queue of the kind assumed in `Verif/DepHier/Flood.lean`. -/
theorem dhFloodH_eq (he : StrictMono enc) (hdec : ∀ z, dec (enc z) = z) (hW : ∀ z, enc z < 2 ^ W) :
    dhFloodH enc dec W w h t dem oc = some (dhFlood lifoPQ w h t dem oc) := by
  have R0 : RHeap.Stacked W (RHeap.empty W : RHeap Cell) (0, ([] : List (E × Cell)).map (encE enc)) :=
    ⟨RHeap.inv_empty W, rfl, by simp, fun k _ => by simp [RHeap.same, RHeap.empty]⟩
  obtain ⟨hp1, e1, R1⟩ := pushSeedsH_sim (dem := dem) hW (oceanSeeds w h t oc) _ _ R0
  obtain ⟨hp2, e2, R2⟩ := pushSeedsH_sim (dem := dem) hW (landSeeds w h t dem oc) _ _ R1
  obtain ⟨last, x, e3, R3⟩ := dhLoopH_sim he hdec hW (2 * (w * h)) (dhInit lifoPQ w h t dem oc)
    (⟨fun c => if inGrid w h c && oc c then some 0 else none, fun _ => 0, [], 1, fun _ => (0, 0), fun _ => none⟩, hp2) 0 _
    (dhInit_inv lifoPQ) ⟨rfl, R2⟩
  unfold dhFloodH
  simp only [e1, e2, Option.bind_some, e3, Option.map_some]
  rw [R3.eq]
  have hfin := (dhFlood_final (lifoPQ (E := E)) w h t dem oc).2
  rw [← hfin]
  rfl

end

end RichDEM
