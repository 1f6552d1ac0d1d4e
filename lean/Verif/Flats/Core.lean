import Verif.Fill.Bucket
import Verif.Fill.Bfs

/-!
Flat resolution after Barnes, Lehman and Mulla: labelling of the flats and construction of the
flat mask.  The same code exists twice: include/richdem/flats/Barnes2014.hpp (cells classified by
`FindFlats`) and include/richdem/flats/flat_resolution.hpp (cells classified by their flow
directions).  `flatb` is the test for a flat cell: `flats(nx,ny)==IS_A_FLAT` in the first,
`flowdirs(nx,ny)==NO_FLOW` in the second.

Elevations are an arbitrary linear order (NaN is excluded); `int` counters are unbounded.
-/

namespace RichDEM

section
variable {E : Type*} [LinearOrder E]

/-- Barnes2014.hpp:438-441, flat_resolution.hpp:484-487: label the region of every low edge not labelled yet; returns the
labels and `group_number`. -/
def labelLoop (w h : Nat) (dem : Cell → E) (low : List Cell) : (Cell → Int) × Int :=
  low.foldl (fun s i => if s.1 i = 0 then ((labelFlat (fifo Cell) w h dem i s.2 s.1).val, s.2 + 1)
    else s) (fun _ => 0, 1)

end

/-- Barnes2014.hpp:95-105 and 196-206, flat_resolution.hpp:186-193 and 286-293: the neighbours appended to the queue. -/
def gradCand (w h : Nat) (flatb : Cell → Bool) (labels : Cell → Int) (c : Cell) : List Cell :=
  ((dirs .D8).map (nbr .D8 c)).filter (fun d =>
    inGrid w h d && decide (labels d = labels c) && flatb d)

/-- Locals of `BuildAwayGradient`; `flat_height` is a total function here (the vector has
`group_number` entries; `labels_lt_group` shows that every index used is in range). -/
structure AwayS where
  mask : Cell → Int
  height : Int → Int
  q : List Cell
  loops : Int

/-- Barnes2014.hpp:79-106, flat_resolution.hpp:170-194: one iteration of `BuildAwayGradient`. -/
def awayStep (w h : Nat) (flatb : Cell → Bool) (labels : Cell → Int) (s : AwayS) : Option AwayS :=
  match s.q with
  | [] => none
  | [_] => none                                                              -- :79
  | c :: rest =>
    if c.1 = -1 then some { s with q := rest ++ [marker], loops := s.loops + 1 }  -- :83-87
    else if s.mask c > 0 then some { s with q := rest }                      -- :89
    else some { mask := Function.update s.mask c s.loops                     -- :93
                height := Function.update s.height (labels c) s.loops        -- :94
                q := rest ++ gradCand w h flatb labels c, loops := s.loops } -- :95-105

/-- Barnes2014.hpp:62-110, flat_resolution.hpp:152-198 (`BuildAwayGradient`) on a zero mask and zero heights
(Barnes2014.hpp:424, 461). -/
def buildAway (w h : Nat) (flatb : Cell → Bool) (labels : Cell → Int) (high : List Cell) : AwayS :=
  loop (awayStep w h flatb labels) (bfsFuel w h high.length)
    { mask := fun _ => 0, height := fun _ => 0, q := high ++ [marker], loops := 1 }

/-- Locals of `BuildTowardsCombinedGradient`. -/
structure TowardS where
  mask : Cell → Int
  q : List Cell
  loops : Int

/-- Barnes2014.hpp:177-207, flat_resolution.hpp:267-294: one iteration of `BuildTowardsCombinedGradient`. -/
def towardStep (w h : Nat) (flatb : Cell → Bool) (labels : Cell → Int) (height : Int → Int) (s : TowardS) :
    Option TowardS :=
  match s.q with
  | [] => none
  | [_] => none                                                              -- :177
  | c :: rest =>
    if c.1 = -1 then some { s with q := rest ++ [marker], loops := s.loops + 1 }  -- :181-185
    else if s.mask c > 0 then some { s with q := rest }                      -- :187
    else some { mask := Function.update s.mask c                             -- :191-194
                  (if s.mask c ≠ 0 then (height (labels c) + s.mask c) + 2 * s.loops
                   else 2 * s.loops)
                q := rest ++ gradCand w h flatb labels c, loops := s.loops } -- :196-206

/-- Barnes2014.hpp:152-211, flat_resolution.hpp:241-298 (`BuildTowardsCombinedGradient`); 169-172 negate the mask. -/
def buildToward (w h : Nat) (flatb : Cell → Bool) (labels : Cell → Int) (height : Int → Int) (mask : Cell → Int)
    (low : List Cell) : TowardS :=
  loop (towardStep w h flatb labels height) (bfsFuel w h low.length)
    { mask := fun c => mask c * -1, q := low ++ [marker], loops := 1 }

/-- Barnes2014.hpp:429-464 and flat_resolution.hpp:475-514: from the edge queues to `flat_mask` and
`labels`.  Logging is not modelled. -/
def flatMaskCore {E : Type*} [LinearOrder E] (w h : Nat) (dem : Cell → E) (flatb : Cell → Bool)
    (low high : List Cell) : (Cell → Int) × (Cell → Int) :=
  if low = [] then (fun _ => 0, fun _ => 0)                                  -- :429-435
  else
    let labels := (labelLoop w h dem low).1
    let high' := high.filter (fun i => !(decide (labels i = 0)))             -- :446-453
    let a := buildAway w h flatb labels high'
    ((buildToward w h flatb labels a.height a.mask low).mask, labels)

section
variable {E : Type*} [LinearOrder E] {w h : Nat} {dem : Cell → E}

/-! ### Labelling -/

structure LabInv (w h : Nat) (dem : Cell → E) (low done : List Cell) (s : (Cell → Int) × Int) :
    Prop where
  pos : 1 ≤ s.2
  range : ∀ c, 0 ≤ s.1 c ∧ s.1 c < s.2
  sound : ∀ c, 0 < s.1 c → ∃ l ∈ low, SameRegion w h dem l c
  closed : ∀ a b, SameRegion w h dem a b → s.1 a = s.1 b
  same : ∀ a b, 0 < s.1 a → s.1 a = s.1 b → SameRegion w h dem a b
  cover : ∀ l ∈ done, 0 < s.1 l

theorem fillReach_region {labels : Cell → Int} {c0 : Cell} (hc0 : InGrid w h c0)
    (hl : labels c0 = 0) (hcl : ∀ a b, SameRegion w h dem a b → labels a = labels b) (c : Cell) :
    FillReach w h .D8 (fun c => dem c == dem c0) (fun u : Int => decide (u > 0)) labels [c0] c ↔
      SameRegion w h dem c0 c := by
  constructor
  · rintro ⟨s, hs, h1, h2, h3⟩
    simp only [List.mem_singleton] at hs
    subst hs
    induction h3 with
    | refl => exact .refl
    | tail _ hab ih =>
      obtain ⟨k1, k2, k3, -⟩ := hab
      exact ih.tail ⟨ih.inGrid hc0, k2, k1, by rw [ih.elev]; simpa using k3⟩
  · intro hr
    refine ⟨c0, by simp, by simp, by simp [hl], ?_⟩
    induction hr with
    | refl => exact .refl
    | @tail x y hx hab ih =>
      refine ih.tail ⟨hab.2.2.1, hab.2.1, ?_, ?_⟩
      · have := SameRegion.elev (hx.tail hab)
        simpa using this
      · have := hcl c0 y (hx.tail hab)
        rw [hl] at this
        simp [← this]

theorem labelLoop_inv (low : List Cell) (hlow : ∀ l ∈ low, InGrid w h l) :
    LabInv w h dem low low (labelLoop w h dem low) := by
  unfold labelLoop
  have gen : ∀ (rest done : List Cell) (s : (Cell → Int) × Int), (∀ l ∈ rest, l ∈ low) →
      LabInv w h dem low done s →
      LabInv w h dem low (done ++ rest) (rest.foldl (fun s i => if s.1 i = 0 then
        ((labelFlat (fifo Cell) w h dem i s.2 s.1).val, s.2 + 1) else s) s) := by
    intro rest
    induction rest with
    | nil => intro done s _ I; simpa using I
    | cons i rest ih =>
      intro done s hr I
      rw [List.foldl_cons]
      have hi := hlow i (hr i (by simp))
      have key : LabInv w h dem low (done ++ [i]) (if s.1 i = 0 then
        ((labelFlat (fifo Cell) w h dem i s.2 s.1).val, s.2 + 1) else s) := by
        by_cases h0 : s.1 i = 0
        · rw [if_pos h0]
          obtain ⟨-, D, hD, hv⟩ := labelFlat_final (fifo Cell) w h dem i hi s.2
            (by have := I.pos; omega) s.1
          simp only [fillReach_region hi h0 I.closed] at hD
          have hpos := I.pos
          have hDc : ∀ a b, SameRegion w h dem a b → D a = D b := by
            intro a b hab
            have : D a = true ↔ D b = true := by
              rw [hD, hD]
              exact ⟨fun k => k.trans hab, fun k => k.trans hab.symm⟩
            rw [Bool.eq_iff_iff]; exact this
          constructor
          · show 1 ≤ s.2 + 1; omega
          · intro c
            have := I.range c
            simp only [hv c]
            split <;> constructor <;> omega
          · intro c hc
            simp only [hv c] at hc
            split at hc
            · rename_i h1; exact ⟨i, hr i (by simp), (hD c).1 h1⟩
            · exact I.sound c hc
          · intro a b hab
            simp only [hv]
            rw [hDc a b hab, I.closed a b hab]
          · intro a b ha hab
            simp only [hv] at ha hab
            by_cases hDa : D a = true
            · by_cases hDb : D b = true
              · exact SameRegion.symm ((hD a).1 hDa) |>.trans ((hD b).1 hDb)
              · rw [if_pos hDa, if_neg hDb] at hab
                have := (I.range b).2; omega
            · rw [if_neg hDa] at ha hab
              by_cases hDb : D b = true
              · rw [if_pos hDb] at hab
                have := (I.range a).2; omega
              · rw [if_neg hDb] at hab
                exact I.same a b ha hab
          · intro l hl
            simp only [hv]
            rcases List.mem_append.1 hl with hl | hl
            · have := I.cover l hl
              split <;> omega
            · simp only [List.mem_singleton] at hl
              rw [hl, if_pos ((hD i).2 .refl)]; omega
        · rw [if_neg h0]
          refine ⟨I.pos, I.range, I.sound, I.closed, I.same, ?_⟩
          intro l hl
          rcases List.mem_append.1 hl with hl | hl
          · exact I.cover l hl
          · simp only [List.mem_singleton] at hl
            have := (I.range i).1
            rw [hl]; omega
      have := ih (done ++ [i]) _ (fun l hl => hr l (by simp [hl])) key
      rw [List.append_assoc] at this
      exact this
  have := gen low [] (fun _ => 0, 1) (fun _ h => h) (by
    constructor
    · exact le_refl _
    · intro c; constructor <;> simp
    · intro c hc; simp at hc
    · intro a b _; rfl
    · intro a b ha; simp at ha
    · intro l hl; simp at hl)
  simpa using this

end

/-! ### Gradients -/

section
variable {w h : Nat} {flatb : Cell → Bool} {labels : Cell → Int}

/-- Edges followed by the gradients. -/
def GradEdge (w h : Nat) (flatb : Cell → Bool) (labels : Cell → Int) (a b : Cell) : Prop :=
  InGrid w h b ∧ Adj .D8 a b ∧ labels b = labels a ∧ flatb b = true

theorem mem_gradCand {a b : Cell} : b ∈ gradCand w h flatb labels a ↔
    GradEdge w h flatb labels a b := by
  simp only [gradCand, List.mem_filter, List.mem_map, Bool.and_eq_true, decide_eq_true_eq,
    inGrid_iff, GradEdge]
  constructor
  · rintro ⟨⟨n, hn, rfl⟩, ⟨h1, h2⟩, h3⟩; exact ⟨h1, nbr_adj hn, h2, h3⟩
  · rintro ⟨h1, h2, h3, h4⟩
    obtain ⟨n, hn, rfl⟩ := adj_iff_nbr.1 h2
    exact ⟨⟨n, hn, rfl⟩, ⟨h1, h3⟩, h4⟩

theorem length_gradCand (a : Cell) : (gradCand w h flatb labels a).length ≤ 8 := by
  refine (List.length_filter_le _ _).trans ?_
  rw [List.length_map]; exact length_dirs_le .D8

/-- The refinement relation between `BuildAwayGradient` and the bare traversal. -/
structure AwayRel (labels : Cell → Int) (s : AwayS) (t : BfsS) : Prop where
  q : s.q = t.q
  loops : s.loops = t.loops
  pos : 1 ≤ t.loops
  mask : ∀ c, s.mask c = t.lv c
  le : ∀ c, t.lv c ≤ t.loops
  height : ∀ c, 0 < t.lv c → (t.lv c : Int) ≤ s.height (labels c)
  attained : ∀ l, s.height l = 0 ∨ ∃ c, labels c = l ∧ 0 < t.lv c ∧ (t.lv c : Int) = s.height l

theorem away_sim (s : AwayS) (t : BfsS) (hR : AwayRel labels s t) :
    OptRel (AwayRel labels) (awayStep w h flatb labels s)
      (bfsStep (gradCand w h flatb labels) t) := by
  obtain ⟨lv, q, loops⟩ := t
  have hq : s.q = q := hR.q
  unfold awayStep bfsStep
  simp only [hq]
  rcases q with _ | ⟨c, _ | ⟨d, rest⟩⟩
  · trivial
  · trivial
  · have hloops : s.loops = (loops : Int) := hR.loops
    have hpos : 1 ≤ loops := hR.pos
    have hmask : ∀ c, s.mask c = lv c := hR.mask
    have hle : ∀ c, lv c ≤ loops := hR.le
    have hheight : ∀ c, 0 < lv c → (lv c : Int) ≤ s.height (labels c) := hR.height
    have hatt : ∀ l, s.height l = 0 ∨ ∃ c, labels c = l ∧ 0 < lv c ∧ (lv c : Int) = s.height l :=
      hR.attained
    by_cases h1 : c.1 = -1
    · simp only [if_pos h1, OptRel]
      refine ⟨rfl, ?_, ?_, hmask, ?_, hheight, hatt⟩
      · show s.loops + 1 = ((loops + 1 : Nat) : Int); omega
      · show 1 ≤ loops + 1; omega
      · intro c; exact (hle c).trans (Nat.le_succ _)
    · simp only [if_neg h1]
      by_cases h2 : lv c > 0
      · have h2' : s.mask c > 0 := by rw [hmask]; omega
        simp only [if_pos h2, if_pos h2', OptRel]
        exact ⟨rfl, hloops, hpos, hmask, hle, hheight, hatt⟩
      · have h2' : ¬ s.mask c > 0 := by rw [hmask]; omega
        simp only [if_neg h2, if_neg h2', OptRel]
        refine ⟨rfl, hloops, hpos, ?_, ?_, ?_, ?_⟩
        · intro e
          show Function.update s.mask c s.loops e = ((Function.update lv c loops e : Nat) : Int)
          by_cases he : e = c
          · subst he; simp [hloops]
          · rw [Function.update_of_ne he, Function.update_of_ne he]; exact hmask e
        · intro e
          show Function.update lv c loops e ≤ loops
          by_cases he : e = c
          · subst he; simp
          · rw [Function.update_of_ne he]; exact hle e
        · intro e
          show 0 < Function.update lv c loops e → ((Function.update lv c loops e : Nat) : Int) ≤
            Function.update s.height (labels c) s.loops (labels e)
          by_cases he : e = c
          · subst he; intro _; simp [hloops]
          · rw [Function.update_of_ne he]
            intro h3
            by_cases hl : labels e = labels c
            · rw [hl, Function.update_self, hloops]
              have := hle e; omega
            · rw [Function.update_of_ne hl]; exact hheight e h3
        · intro l
          show Function.update s.height (labels c) s.loops l = 0 ∨ ∃ e, labels e = l ∧
            0 < Function.update lv c loops e ∧
            ((Function.update lv c loops e : Nat) : Int) = Function.update s.height (labels c) s.loops l
          by_cases hl : l = labels c
          · right
            refine ⟨c, hl.symm, ?_, ?_⟩
            · simp only [Function.update_self]; omega
            · rw [hl]; simp [hloops]
          · rw [Function.update_of_ne hl]
            rcases hatt l with h3 | ⟨e, h3, h4, h5⟩
            · exact .inl h3
            · right
              have he : e ≠ c := by rintro rfl; exact hl h3.symm
              refine ⟨e, h3, ?_, ?_⟩ <;> rw [Function.update_of_ne he]
              · exact h4
              · exact h5

theorem buildAway_final (high : List Cell) (hin : ∀ c ∈ high, InGrid w h c) :
    let r := buildAway w h flatb labels high
    (∀ c, r.mask c = 0 ∨ ∃ n : Nat, r.mask c = n + 1 ∧
      IsHopDist (· ∈ high) (GradEdge w h flatb labels) c n) ∧
    (∀ c n, Hops (· ∈ high) (GradEdge w h flatb labels) n c → 0 < r.mask c) ∧
    (∀ c, r.mask c ≠ 0 → r.mask c ≤ r.height (labels c)) ∧
    (∀ l, r.height l = 0 ∨ ∃ c, labels c = l ∧ r.mask c = r.height l) := by
  intro r
  obtain ⟨h1, h2, h3⟩ := bfs_final (w := w) (h := h) (R := GradEdge w h flatb labels)
    (cand := gradCand w h flatb labels) high (fun a _ b => mem_gradCand)
    (fun a b hR => hR.1) length_gradCand hin
  have hR := loop_sim (f := awayStep w h flatb labels) (g := bfsStep (gradCand w h flatb labels))
    (AwayRel labels) (away_sim (w := w) (h := h) (flatb := flatb))
    (bfsFuel w h high.length)
    { mask := fun _ => 0, height := fun _ => 0, q := high ++ [marker], loops := 1 }
    { lv := fun _ => 0, q := high ++ [marker], loops := 1 }
    (by
      refine ⟨rfl, rfl, le_refl _, fun _ => rfl, fun _ => by simp, ?_, fun _ => .inl rfl⟩
      intro c hc; simp at hc)
  change AwayRel labels r _ at hR
  generalize loop (bfsStep (gradCand w h flatb labels)) (bfsFuel w h high.length)
    { lv := fun _ => 0, q := high ++ [marker], loops := 1 } = t at *
  refine ⟨?_, ?_, ?_, ?_⟩
  · intro c
    by_cases hc : 0 < t.lv c
    · right; exact ⟨t.lv c - 1, by rw [hR.mask]; omega, h2 c hc⟩
    · left; rw [hR.mask]; omega
  · intro c n hn; rw [hR.mask]; have := h3 c n hn; omega
  · intro c hc
    rw [hR.mask] at hc ⊢
    exact hR.height c (by omega)
  · intro l
    rcases hR.attained l with h4 | ⟨c, h4, _, h6⟩
    · exact .inl h4
    · right; exact ⟨c, h4, by rw [hR.mask]; exact h6⟩

/-- The value written by lines 191-194 for a cell first met at level `n`. -/
def combined (a : Cell → Int) (height : Int → Int) (labels : Cell → Int) (c : Cell) (n : Int) : Int :=
  (if a c = 0 then 0 else height (labels c) - a c) + 2 * n

structure TowRel (a : Cell → Int) (height : Int → Int) (labels : Cell → Int) (s : TowardS)
    (t : BfsS) : Prop where
  q : s.q = t.q
  loops : s.loops = t.loops
  pos : 1 ≤ t.loops
  mask : ∀ c, s.mask c = if 0 < t.lv c then combined a height labels c (t.lv c) else - a c

theorem toward_sim {a : Cell → Int} {height : Int → Int} (ha : ∀ c, 0 ≤ a c)
    (hh : ∀ c, a c ≠ 0 → a c ≤ height (labels c)) (s : TowardS) (t : BfsS)
    (hR : TowRel a height labels s t) :
    OptRel (TowRel a height labels) (towardStep w h flatb labels height s)
      (bfsStep (gradCand w h flatb labels) t) := by
  obtain ⟨lv, q, loops⟩ := t
  have hq : s.q = q := hR.q
  unfold towardStep bfsStep
  simp only [hq]
  rcases q with _ | ⟨c, _ | ⟨d, rest⟩⟩
  · trivial
  · trivial
  · have hloops : s.loops = (loops : Int) := hR.loops
    have hpos : 1 ≤ loops := hR.pos
    have hmask : ∀ c, s.mask c = if 0 < lv c then combined a height labels c (lv c) else - a c :=
      hR.mask
    by_cases h1 : c.1 = -1
    · simp only [if_pos h1, OptRel]
      refine ⟨rfl, ?_, ?_, hmask⟩
      · show s.loops + 1 = ((loops + 1 : Nat) : Int); omega
      · show 1 ≤ loops + 1; omega
    · simp only [if_neg h1]
      by_cases h2 : lv c > 0
      · have h2' : s.mask c > 0 := by
          rw [hmask, if_pos h2, combined]
          split
          · omega
          · rename_i h3; have := hh c h3; omega
        simp only [if_pos h2, if_pos h2', OptRel]
        exact ⟨rfl, hloops, hpos, hmask⟩
      · have hm : s.mask c = - a c := by rw [hmask, if_neg h2]
        have h2' : ¬ s.mask c > 0 := by rw [hm]; have := ha c; omega
        simp only [if_neg h2, if_neg h2', OptRel]
        refine ⟨rfl, hloops, hpos, ?_⟩
        intro e
        show Function.update s.mask c _ e = if 0 < Function.update lv c loops e then
          combined a height labels e ((Function.update lv c loops e : Nat) : Int) else - a e
        by_cases he : e = c
        · subst he
          have hl0 : 0 < loops := by omega
          simp only [Function.update_self, if_pos hl0, combined, hm, hloops]
          by_cases h3 : a e = 0
          · simp [h3]
          · have h4 : -a e ≠ 0 := by omega
            simp only [if_pos h4, if_neg h3]; omega
        · rw [Function.update_of_ne he, Function.update_of_ne he]; exact hmask e

theorem buildToward_final {a : Cell → Int} {height : Int → Int} (ha : ∀ c, 0 ≤ a c)
    (hh : ∀ c, a c ≠ 0 → a c ≤ height (labels c)) (low : List Cell)
    (hin : ∀ c ∈ low, InGrid w h c) :
    let r := buildToward w h flatb labels height a low
    ∃ t : Cell → Nat,
      (∀ c, 0 < t c → IsHopDist (· ∈ low) (GradEdge w h flatb labels) c (t c - 1)) ∧
      (∀ c n, Hops (· ∈ low) (GradEdge w h flatb labels) n c → 0 < t c) ∧
      (∀ c, r.mask c = if 0 < t c then combined a height labels c (t c) else - a c) := by
  intro r
  obtain ⟨h1, h2, h3⟩ := bfs_final (w := w) (h := h) (R := GradEdge w h flatb labels)
    (cand := gradCand w h flatb labels) low (fun a _ b => mem_gradCand)
    (fun a b hR => hR.1) length_gradCand hin
  have hR := loop_sim (f := towardStep w h flatb labels height)
    (g := bfsStep (gradCand w h flatb labels)) (TowRel a height labels) (toward_sim (w := w) (h := h) (flatb := flatb) ha hh)
    (bfsFuel w h low.length)
    { mask := fun c => a c * -1, q := low ++ [marker], loops := 1 }
    { lv := fun _ => 0, q := low ++ [marker], loops := 1 }
    (by
      refine ⟨rfl, rfl, le_refl _, fun c => ?_⟩
      simp)
  change TowRel a height labels r _ at hR
  exact ⟨_, h2, h3, hR.mask⟩

end

end RichDEM
