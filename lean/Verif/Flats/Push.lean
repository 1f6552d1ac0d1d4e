import Verif.Props.Flats

/-!
`FindFlatEdges` (Barnes2014.hpp:309-369) with threads.  The cells are dealt out to the threads; an iteration only reads
rasters nobody writes, and appends its cell to one of two shared queues inside `#pragma omp critical`, so that an
iteration is one step.  (Logging and the logged count `cells_without_flow`, which is incremented without protection, are
left out.)
-/

namespace RichDEM

/-- The shared queues and what each thread has still to do. -/
structure PushState where
  low : List Cell
  high : List Cell
  todo : Nat → List Cell

/-- Barnes2014.hpp:323-361: one iteration of thread `t` (nothing if it has finished). -/
def pushStep (kind : Cell → Option Bool) (s : PushState) (t : Nat) : PushState :=
  match s.todo t with
  | [] => s
  | c :: cs =>
    { low := if kind c = some true then s.low ++ [c] else s.low
      high := if kind c = some false then s.high ++ [c] else s.high
      todo := Function.update s.todo t cs }

/-- A schedule: the threads in the order in which they carry out iterations. -/
def pushRun (kind : Cell → Option Bool) (work : Nat → List Cell) (sched : List Nat) : PushState :=
  sched.foldl (pushStep kind) ⟨[], [], work⟩

theorem flatMap_update (l : List Nat) (hl : l.Nodup) (f : Nat → List Cell) (t : Nat) (ht : t ∈ l) (c : Cell)
    (cs : List Cell) (hf : f t = c :: cs) : (c :: l.flatMap (Function.update f t cs)).Perm (l.flatMap f) := by
  induction l with
  | nil => cases ht
  | cons a l ih =>
    rw [List.nodup_cons] at hl
    rw [List.flatMap_cons, List.flatMap_cons]
    by_cases e : a = t
    · subst e
      rw [Function.update_self, hf, List.cons_append]
      have : l.flatMap (Function.update f a cs) = l.flatMap f := by
        apply List.flatMap_congr
        intro b hb
        rw [Function.update_of_ne]
        rintro rfl
        exact hl.1 hb
      rw [this]
    · rw [Function.update_of_ne e]
      have := ih hl.2 (by simpa [Ne.symm e] using ht)
      exact (List.perm_middle.symm).trans (this.append_left _)

/-- What has been pushed, with what is still to come, is a rearrangement of what a scan would push. -/
def PushInv (kind : Cell → Option Bool) (m : Nat) (all : List Cell) (s : PushState) : Prop :=
  (s.low ++ ((List.range m).flatMap s.todo).filter (fun c => kind c == some true)).Perm
    (all.filter fun c => kind c == some true) ∧
  (s.high ++ ((List.range m).flatMap s.todo).filter (fun c => kind c == some false)).Perm
    (all.filter fun c => kind c == some false) ∧
  ∀ t, m ≤ t → s.todo t = []

theorem pushStep_inv {kind : Cell → Option Bool} {m : Nat} {all : List Cell} {s : PushState}
    (H : PushInv kind m all s) (t : Nat) : PushInv kind m all (pushStep kind s t) := by
  obtain ⟨h1, h2, h3⟩ := H
  unfold pushStep
  split
  · exact ⟨h1, h2, h3⟩
  · rename_i c cs e
    have ht : t < m := by
      by_contra k
      rw [h3 t (by omega)] at e
      cases e
    have hp := flatMap_update (List.range m) List.nodup_range s.todo t (List.mem_range.2 ht) c cs e
    have aux : ∀ (b : Bool) (q : List Cell),
        ((if kind c = some b then q ++ [c] else q) ++
          ((List.range m).flatMap (Function.update s.todo t cs)).filter (fun c => kind c == some b)).Perm
        (q ++ ((List.range m).flatMap s.todo).filter (fun c => kind c == some b)) := by
      intro b q
      have hf := hp.filter (fun c => kind c == some b)
      by_cases k : kind c = some b
      · rw [if_pos k, List.append_assoc]
        apply List.Perm.append_left
        rw [List.filter_cons_of_pos (by simpa using k)] at hf
        exact hf
      · rw [if_neg k]
        apply List.Perm.append_left
        rw [List.filter_cons_of_neg (by simpa using k)] at hf
        exact hf
    refine ⟨(aux true _).trans h1, (aux false _).trans h2, ?_⟩
    intro u hu
    dsimp only
    rw [Function.update_of_ne (by omega)]
    exact h3 u hu

/-- The threads' queues, when all have finished. -/
theorem pushRun_queues {kind : Cell → Option Bool} {m : Nat} {all : List Cell} {work : Nat → List Cell}
    (hw : ((List.range m).flatMap work).Perm all) (hn : ∀ t, m ≤ t → work t = []) (sched : List Nat)
    (hf : ∀ t, (pushRun kind work sched).todo t = []) :
    (pushRun kind work sched).low.Perm (all.filter fun c => kind c == some true) ∧
    (pushRun kind work sched).high.Perm (all.filter fun c => kind c == some false) := by
  have h0 : PushInv kind m all ⟨[], [], work⟩ := ⟨by simpa using hw.filter _, by simpa using hw.filter _, hn⟩
  have := foldl_inv' (PushInv kind m all) sched _ (fun s j _ hs => pushStep_inv hs j) h0
  obtain ⟨h1, h2, _⟩ := this
  have e : (List.range m).flatMap (pushRun kind work sched).todo = [] := by
    rw [List.flatMap_eq_nil_iff]
    intro t _
    exact hf t
  unfold pushRun at e ⊢
  rw [e] at h1 h2
  exact ⟨by simpa using h1, by simpa using h2⟩

/-! ### The mask does not depend on the order of the queues -/

section
variable {E : Type*} [LinearOrder E] {w h : Nat} {dem : Cell → E} {flat out hi : Cell → Prop} {flatb flatb' : Cell → Bool}
  {low high low' high' : List Cell}

theorem hopDist_exists {S : Cell → Prop} {R : Cell → Cell → Prop} {c : Cell} (hx : ∃ n, Hops S R n c) :
    ∃ n, IsHopDist S R c n := by
  classical
  exact ⟨Nat.find hx, Nat.find_spec hx, fun m hm => Nat.find_min' hx hm⟩

theorem hopDist_unique {S : Cell → Prop} {R : Cell → Cell → Prop} {c : Cell} {n m : Nat} (h1 : IsHopDist S R c n)
    (h2 : IsHopDist S R c m) : n = m := le_antisymm (h1.2 _ h2.1) (h2.2 _ h1.1)

/-- Two runs on the same flats give the same mask. -/
theorem core_mask_unique (hq : FlatSys w h dem flat out hi flatb low high)
    (hq' : FlatSys w h dem flat out hi flatb' low' high') (c : Cell) :
    (flatMaskCore w h dem flatb low high).1 c = (flatMaskCore w h dem flatb' low' high').1 c := by
  by_cases hx : LowEdgeOf dem flat out c ∨ DrainableOf w h dem flat out c
  · have hh : ∃ n, Hops (LowEdgeOf dem flat out) (FlatStepOf dem flat) n c := by
      rcases hx with k | k
      · exact ⟨0, .zero k⟩
      · exact drainable_hops hq k
    obtain ⟨n, hn⟩ := hopDist_exists hh
    rcases core_distances hq c n hn with ⟨a1, a2⟩ | ⟨k, top, a1, a2, a3, a4, d, a5, a6⟩
    · rcases core_distances hq' c n hn with ⟨b1, b2⟩ | ⟨k, top, b1, _⟩
      · rw [a2, b2]
      · exact absurd ⟨k, b1.1⟩ a1
    · rcases core_distances hq' c n hn with ⟨b1, b2⟩ | ⟨k', top', b1, b2, b3, b4, d', b5, b6⟩
      · exact absurd ⟨k, a1.1⟩ b1
      · have e1 := hopDist_unique a1 b1
        have e2 : top = top' := le_antisymm (b4 d top a5 a6) (a4 d' top' b5 b6)
        rw [a2, b2, e1, e2]
  · have a := (core_zero_elsewhere hq c).2
    have b := (core_zero_elsewhere hq' c).2
    have ha : ¬ (flatMaskCore w h dem flatb low high).1 c ≠ 0 := fun k => hx (a.1 k)
    have hb : ¬ (flatMaskCore w h dem flatb' low' high').1 c ≠ 0 := fun k => hx (b.1 k)
    rw [not_not.1 ha, not_not.1 hb]

/-- … and labels that agree up to renumbering, 0 remaining 0. -/
theorem core_labels_unique (hq : FlatSys w h dem flat out hi flatb low high)
    (hq' : FlatSys w h dem flat out hi flatb' low' high') (a b : Cell) :
    ((flatMaskCore w h dem flatb low high).2 a = 0 ↔ (flatMaskCore w h dem flatb' low' high').2 a = 0) ∧
    ((flatMaskCore w h dem flatb low high).2 a = (flatMaskCore w h dem flatb low high).2 b ↔
      (flatMaskCore w h dem flatb' low' high').2 a = (flatMaskCore w h dem flatb' low' high').2 b) := by
  have pos : ∀ c, (0 < (flatMaskCore w h dem flatb low high).2 c ↔ 0 < (flatMaskCore w h dem flatb' low' high').2 c) :=
    fun c => (core_labelled hq c).2.trans (core_labelled hq' c).2.symm
  have z : ∀ c, ((flatMaskCore w h dem flatb low high).2 c = 0 ↔ (flatMaskCore w h dem flatb' low' high').2 c = 0) := by
    intro c
    have h1 := (core_labelled hq c).1
    have h2 := (core_labelled hq' c).1
    have h3 := pos c
    constructor <;> intro e <;> omega
  refine ⟨z a, ?_⟩
  by_cases hp : 0 < (flatMaskCore w h dem flatb low high).2 a
  · rw [core_same_label hq a b hp, core_same_label hq' a b ((pos a).1 hp)]
  · have h1 := (core_labelled hq a).1
    have e : (flatMaskCore w h dem flatb low high).2 a = 0 := by omega
    rw [e, (z a).1 e]
    constructor
    · intro k; rw [(z b).1 k.symm]
    · intro k; rw [(z b).2 k.symm]

end

end RichDEM
