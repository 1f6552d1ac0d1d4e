/-
Property theorems C80 (TauDEM direction conversion), C81 (loop check) and C82
(rd_flood_for_flowdirs).
-/
import Verif.Apps.FlowTools
import Verif.Props.FlowFlats

namespace RichDEM

open Relation

/-! ### C80: TauDEM codes -/

/-- Specification, from TauDEM's documentation: code `k` in 1..8 is the direction at `45(k-1)`
degrees, counter-clockwise from east (x to the east, y to the south). -/
def tauStep : Int → Int × Int
  | 1 => (1, 0)
  | 2 => (1, -1)
  | 3 => (0, -1)
  | 4 => (-1, -1)
  | 5 => (-1, 0)
  | 6 => (-1, 1)
  | 7 => (0, 1)
  | 8 => (1, 1)
  | _ => (0, 0)

/-- `tauStep` goes round counter-clockwise: each code is the one before turned by 45 degrees (and
stretched: twice the step is the previous step turned by 90 degrees plus the previous step, up to
the length of diagonals). -/
theorem tauStep_turns : ∀ k ∈ [1, 3, 5, 7], tauStep ((k + 1) % 8 + 1) =
      ((tauStep k).2, -(tauStep k).1) ∧
    tauStep (k + 1) = ((tauStep k).1 + (tauStep k).2, (tauStep k).2 - (tauStep k).1) := by
  decide

theorem convert_frame (nd : Int) : ∀ (L : List Cell) (fd out : Cell → Int), L.Nodup →
    L.foldlM (convertCell nd) fd = some out →
    (∀ c, c ∉ L → out c = fd c) ∧
    ∀ c ∈ L, (fd c = nd ∧ out c = fd c) ∨ (fd c ≠ nd ∧ (0 ≤ fd c ∧ fd c ≤ 8) ∧
      out c = taudemToRichdem.getD (fd c).toNat 0) := by
  intro L
  induction L with
  | nil =>
    intro fd out _ e
    simp at e
    subst e
    exact ⟨fun _ _ => rfl, by simp⟩
  | cons a L ih =>
    intro fd out hn e
    obtain ⟨hna, hn⟩ := List.nodup_cons.1 hn
    rw [List.foldlM_cons] at e
    unfold convertCell at e
    by_cases h1 : fd a = nd
    · rw [if_pos h1] at e
      obtain ⟨i1, i2⟩ := ih fd out hn e
      refine ⟨fun c hc => i1 c fun k => hc (by simp [k]), fun c hc => ?_⟩
      rcases List.mem_cons.1 hc with rfl | hc
      · exact .inl ⟨h1, i1 c hna⟩
      · exact i2 c hc
    · rw [if_neg h1] at e
      by_cases h2 : 0 ≤ fd a ∧ fd a ≤ 8
      · rw [if_pos h2] at e
        obtain ⟨i1, i2⟩ := ih _ out hn e
        refine ⟨fun c hc => ?_, fun c hc => ?_⟩
        · rw [i1 c fun k => hc (by simp [k]),
            Function.update_of_ne (show c ≠ a from fun k => hc (by simp [k]))]
        · rcases List.mem_cons.1 hc with rfl | hc
          · exact .inr ⟨h1, h2, by rw [i1 c hna, Function.update_self]⟩
          · have := i2 c hc
            rwa [Function.update_of_ne (show c ≠ a from fun k => hna (k ▸ hc))] at this
      · rw [if_neg h2] at e
        simp at e

theorem convert_some (nd : Int) : ∀ (L : List Cell) (fd : Cell → Int), L.Nodup →
    (∀ c ∈ L, fd c ≠ nd → 0 ≤ fd c ∧ fd c ≤ 8) → ∃ out, L.foldlM (convertCell nd) fd = some out := by
  intro L
  induction L with
  | nil => intro fd _ _; exact ⟨fd, rfl⟩
  | cons a L ih =>
    intro fd hn hv
    obtain ⟨hna, hn⟩ := List.nodup_cons.1 hn
    rw [List.foldlM_cons]
    unfold convertCell
    by_cases h1 : fd a = nd
    · rw [if_pos h1]
      exact ih fd hn fun c hc => hv c (List.mem_cons_of_mem _ hc)
    · rw [if_neg h1, if_pos (hv a (by simp) h1)]
      refine ih _ hn fun c hc => ?_
      rw [Function.update_of_ne (show c ≠ a from fun k => hna (k ▸ hc))]
      exact hv c (List.mem_cons_of_mem _ hc)

section
variable (w h : Nat) (nd : Int) (fd : Cell → Int)

/-- C80: the tool succeeds exactly when every data cell holds a code in 0..8; otherwise it throws
and writes nothing. -/
theorem C80_succeeds_iff : (∃ out, convertTaudem w h nd fd = some out) ↔
    ∀ c, InGrid w h c → fd c ≠ nd → 0 ≤ fd c ∧ fd c ≤ 8 := by
  constructor
  · rintro ⟨out, e⟩ c hc hd
    rcases (convert_frame nd _ fd out (nodup_allCells w h) e).2 c (mem_allCells.2 hc) with k | k
    · exact absurd k.1 hd
    · exact k.2.1
  · intro hv
    exact convert_some nd _ fd (nodup_allCells w h) fun c hc => hv c (mem_allCells.1 hc)

/-- C80: the converted direction points, in RichDEM's numbering, to the same neighbour as the
TauDEM code did; code 0 stays "no flow"; NoData cells keep their value. -/
theorem C80_same_neighbour (out : Cell → Int) (e : convertTaudem w h nd fd = some out) (c : Cell)
    (hc : InGrid w h c) :
    (fd c = nd → out c = nd) ∧
    (fd c ≠ nd → fd c = 0 → out c = 0) ∧
    (fd c ≠ nd → fd c ≠ 0 → (1 ≤ out c ∧ out c ≤ 8) ∧
      nbr .D8 c (out c).toNat = (c.1 + (tauStep (fd c)).1, c.2 + (tauStep (fd c)).2)) := by
  rcases (convert_frame nd _ fd out (nodup_allCells w h) e).2 c (mem_allCells.2 hc) with
    ⟨k1, k2⟩ | ⟨k1, k2, k3⟩
  · exact ⟨fun _ => k2.trans k1, fun k => absurd k1 k, fun k => absurd k1 k⟩
  · refine ⟨fun k => absurd k k1, fun _ k => by rw [k3, k]; rfl, fun _ k => ?_⟩
    rw [k3]
    generalize fd c = v at *
    obtain ⟨k4, k5⟩ := k2
    have : v = 1 ∨ v = 2 ∨ v = 3 ∨ v = 4 ∨ v = 5 ∨ v = 6 ∨ v = 7 ∨ v = 8 := by omega
    rcases this with rfl | rfl | rfl | rfl | rfl | rfl | rfl | rfl <;>
      exact ⟨by decide, rfl⟩

/-- C80: no cell outside the raster is written. -/
theorem C80_only_raster (out : Cell → Int) (e : convertTaudem w h nd fd = some out) (c : Cell)
    (hc : ¬ InGrid w h c) : out c = fd c :=
  (convert_frame nd _ fd out (nodup_allCells w h) e).1 c fun k => hc (mem_allCells.1 k)

/-- C80: if the raster's NoData value is not itself a direction code, data cells stay data cells;
and converting twice gives the original raster back. -/
theorem C80_data_stay_data (hnd : nd < 0 ∨ 8 < nd) (out : Cell → Int)
    (e : convertTaudem w h nd fd = some out) (c : Cell) (hc : InGrid w h c) :
    out c = nd ↔ fd c = nd := by
  have h1 := C80_same_neighbour w h nd fd out e c hc
  refine ⟨fun k => ?_, h1.1⟩
  by_contra h2
  by_cases h3 : fd c = 0
  · have := h1.2.1 h2 h3; omega
  · have := (h1.2.2 h2 h3).1; omega

theorem C80_involution (hnd : nd < 0 ∨ 8 < nd) (out : Cell → Int)
    (e : convertTaudem w h nd fd = some out) : convertTaudem w h nd out = some fd := by
  have hf := convert_frame nd _ fd out (nodup_allCells w h) e
  have hv : ∀ c, InGrid w h c → out c ≠ nd → 0 ≤ out c ∧ out c ≤ 8 := by
    intro c hc hd
    have h1 := C80_same_neighbour w h nd fd out e c hc
    have h2 : fd c ≠ nd := fun k => hd (h1.1 k)
    by_cases h3 : fd c = 0
    · have := h1.2.1 h2 h3; omega
    · have := (h1.2.2 h2 h3).1; omega
  obtain ⟨out2, e2⟩ := (C80_succeeds_iff w h nd out).2 hv
  rw [e2]
  congr 1
  funext c
  by_cases hc : InGrid w h c
  · have hi := C80_data_stay_data w h nd fd hnd out e c hc
    rcases (convert_frame nd _ out out2 (nodup_allCells w h) e2).2 c (mem_allCells.2 hc) with k | k
    · rw [k.2, k.1, hi.1 k.1]
    · rcases hf.2 c (mem_allCells.2 hc) with l | l
      · exact absurd (l.2.trans l.1) k.1
      · rw [k.2.2, l.2.2]
        obtain ⟨_, ⟨k4, k5⟩, _⟩ := l
        generalize fd c = v at *
        have : v = 0 ∨ v = 1 ∨ v = 2 ∨ v = 3 ∨ v = 4 ∨ v = 5 ∨ v = 6 ∨ v = 7 ∨ v = 8 := by omega
        rcases this with rfl | rfl | rfl | rfl | rfl | rfl | rfl | rfl | rfl <;> rfl
  · rw [C80_only_raster w h nd out out2 e2 c hc, C80_only_raster w h nd fd out e c hc]

/-- C80, refuted without that hypothesis: with NoData value 5 a cell flowing east (TauDEM 1)
becomes NoData. -/
theorem C80_nodata_refuted :
    (convertTaudem 1 1 5 (fun _ => 1)).map (fun f => f (0, 0)) = some 5 := by
  decide +kernel

end

/-- Non-vacuity: all eight codes, 0 and a NoData cell. -/
example : (convertTaudem 5 2 (-1) (ofRows 0 [[0, 1, 2, 3, 4], [5, 6, 7, 8, -1]])).map (toRows 5 2) =
    some [[0, 5, 4, 3, 2], [1, 8, 7, 6, -1]] := by decide +kernel

/-- Non-vacuity: an invalid code is rejected. -/
example : (convertTaudem 2 1 (-1) (ofRows 0 [[3, 9]])).isNone := by decide +kernel

/-! ### C81: loop check -/

/-- Specification: flow goes from `a` to `b`, both in the raster. -/
def FlowStep (w h : Nat) (fd : Cell → Nat) (nd : Nat) (a b : Cell) : Prop :=
  InGrid w h a ∧ fd a ≠ nd ∧ fd a ≠ 0 ∧ b = nbr .D8 a (fd a) ∧ InGrid w h b

/-- The flow path from `c` makes at least `k` steps before it ends. -/
def PathAtLeast (w h : Nat) (fd : Cell → Nat) (nd k : Nat) (c : Cell) : Prop :=
  ∃ p : List Cell, p.length = k + 1 ∧ p.head? = some c ∧ p.IsChain (FlowStep w h fd nd)

section
variable {w h : Nat} {fd : Cell → Nat} {nd : Nat}

theorem pathAtLeast_zero (c : Cell) : PathAtLeast w h fd nd 0 c :=
  ⟨[c], rfl, rfl, List.isChain_singleton _⟩

theorem pathAtLeast_succ (k : Nat) (c : Cell) : PathAtLeast w h fd nd (k + 1) c ↔
    ∃ b, FlowStep w h fd nd c b ∧ PathAtLeast w h fd nd k b := by
  constructor
  · rintro ⟨p, h1, h2, h3⟩
    match p, h1, h2, h3 with
    | a :: b :: p, h1, h2, h3 =>
      rw [List.isChain_cons_cons] at h3
      simp at h2
      subst h2
      exact ⟨b, h3.1, b :: p, by simpa using h1, rfl, h3.2⟩
  · rintro ⟨b, hb, p, h1, h2, h3⟩
    match p, h1, h2, h3 with
    | b' :: p, h1, h2, h3 =>
      simp at h2
      subst h2
      exact ⟨c :: b' :: p, by simpa using h1, rfl, List.isChain_cons_cons.2 ⟨hb, h3⟩⟩

theorem flowStep_fun {a b b' : Cell} (h1 : FlowStep w h fd nd a b) (h2 : FlowStep w h fd nd a b') :
    b = b' := h1.2.2.2.1.trans h2.2.2.2.1.symm

/-- The loop runs to its end exactly when the path has `fuel` steps. -/
theorem followLoop_spec (hv : ∀ c, InGrid w h c → fd c = nd ∨ fd c ≤ 8) : ∀ (fuel pl : Nat) (c : Cell),
    InGrid w h c → ∃ out b, followLoop w h fd nd fuel pl c = some (out, b) ∧ .blank ∉ out ∧
      (b = true ↔ PathAtLeast w h fd nd fuel c) := by
  intro fuel
  induction fuel with
  | zero =>
    intro pl c _
    exact ⟨[], true, rfl, by simp, by simpa using pathAtLeast_zero c⟩
  | succ k ih =>
    intro pl c hc
    unfold followLoop
    dsimp only
    obtain ⟨line, hline⟩ : ∃ line, line = if sizeSub w 10 < pl + 1 then [LoopLine.at c.1 c.2 (fd c)] else [] :=
      ⟨_, rfl⟩
    have hl : LoopLine.blank ∉ line := by
      rw [hline]; split_ifs <;> simp
    rw [← hline]
    by_cases h1 : fd c = nd ∨ fd c = 0
    · rw [if_pos h1]
      refine ⟨line, false, rfl, hl, by simp, fun k => ?_⟩
      obtain ⟨b, hb, _⟩ := (pathAtLeast_succ _ _).1 k
      rcases h1 with h1 | h1
      · exact absurd h1 hb.2.1
      · exact absurd h1 hb.2.2.1
    · push Not at h1
      rw [if_neg (by push Not; exact h1), if_neg (by rcases hv c hc with k | k; exacts [absurd k h1.1, by omega])]
      by_cases h2 : InGrid w h (nbr .D8 c (fd c))
      · rw [if_pos (inGrid_iff.2 h2)]
        obtain ⟨out, b, e1, e2, e3⟩ := ih (pl + 1) _ h2
        rw [e1]
        refine ⟨line ++ out, b, rfl, by simp [hl, e2], ?_⟩
        rw [e3, pathAtLeast_succ]
        exact ⟨fun k => ⟨_, ⟨hc, h1.1, h1.2, rfl, h2⟩, k⟩, fun ⟨b', k1, k2⟩ => k1.2.2.2.1 ▸ k2⟩
      · rw [if_neg (by rw [inGrid_iff]; exact h2)]
        refine ⟨line, false, rfl, hl, by simp, fun k => ?_⟩
        obtain ⟨b, hb, _⟩ := (pathAtLeast_succ _ _).1 k
        exact absurd (hb.2.2.2.1 ▸ hb.2.2.2.2) h2

end

section
variable (w h : Nat) (fd : Cell → Nat) (nd : Nat)

/-- C81 (what is reported): on a raster at least ten (and at most `2^63`) columns wide, with codes
in 0..8 or NoData, `rd_loop_check` closes a report with blank lines for exactly the cells whose
flow path makes at least `width` steps. -/
theorem C81_reports_long_paths (hw : 10 ≤ w) (hw' : w < 2 ^ 63)
    (hv : ∀ c, InGrid w h c → fd c = nd ∨ fd c ≤ 8) (c : Cell) (hc : InGrid w h c) :
    ∃ out, loopFollow w h fd nd c = some out ∧
      (LoopLine.blank ∈ out ↔ PathAtLeast w h fd nd w c) := by
  obtain ⟨out, b, e1, e2, e3⟩ := followLoop_spec hv w 0 c hc
  unfold loopFollow
  rw [e1]
  have h1 : sizeSub w 10 < w + 1 := by unfold sizeSub; omega
  refine ⟨_, rfl, ?_⟩
  rw [← e3]
  dsimp only
  cases b with
  | true => simp [h1]
  | false => simpa using e2

theorem path_of_cycle {c : Cell} (hcyc : TransGen (FlowStep w h fd nd) c c) : ∀ k,
    PathAtLeast w h fd nd k c := by
  have key : ∀ k x, ReflTransGen (FlowStep w h fd nd) c x → ReflTransGen (FlowStep w h fd nd) x c →
      PathAtLeast w h fd nd k x := by
    intro k
    induction k with
    | zero => intro x _ _; exact pathAtLeast_zero x
    | succ k ih =>
      intro x hcx hxc
      rcases ReflTransGen.cases_head hxc with rfl | ⟨y, h1, h2⟩
      · obtain ⟨y, h1, h2⟩ := TransGen.head'_iff.1 hcyc
        exact (pathAtLeast_succ _ _).2 ⟨y, h1, ih y (.single h1) h2⟩
      · exact (pathAtLeast_succ _ _).2 ⟨y, h1, ih y (hcx.tail h1) h2⟩
  exact fun k => key k c .refl .refl

/-- C81 (no loop is missed), for rasters at least ten columns wide: a cell from which flow runs
into a loop is reported. -/
theorem C81_loops_reported_partial (hw : 10 ≤ w) (hw' : w < 2 ^ 63)
    (hv : ∀ c, InGrid w h c → fd c = nd ∨ fd c ≤ 8) (c a : Cell) (hc : InGrid w h c)
    (hca : ReflTransGen (FlowStep w h fd nd) c a) (hcyc : TransGen (FlowStep w h fd nd) a a) :
    ∃ out, loopFollow w h fd nd c = some out ∧ LoopLine.blank ∈ out := by
  obtain ⟨out, e1, e2⟩ := C81_reports_long_paths w h fd nd hw hw' hv c hc
  refine ⟨out, e1, e2.2 ?_⟩
  have key : ∀ k, PathAtLeast w h fd nd k c := by
    clear e2 e1 hc
    induction hca using ReflTransGen.head_induction_on with
    | refl => exact path_of_cycle w h fd nd hcyc
    | @head x y hxy _ ih =>
      intro k
      cases k with
      | zero => exact pathAtLeast_zero x
      | succ k =>
        exact (pathAtLeast_succ _ _).2 ⟨y, hxy, ih k⟩
  exact key w

/-- C81 (a report may be a loop or just a long path): a cell which is reported runs into a loop, or
its path visits more than `width` different cells. -/
theorem C81_reported_partial (hw : 10 ≤ w) (hw' : w < 2 ^ 63)
    (hv : ∀ c, InGrid w h c → fd c = nd ∨ fd c ≤ 8) (c : Cell) (hc : InGrid w h c) (out : List LoopLine)
    (e : loopFollow w h fd nd c = some out) (hb : LoopLine.blank ∈ out) :
    (∃ a, ReflTransGen (FlowStep w h fd nd) c a ∧ TransGen (FlowStep w h fd nd) a a) ∨
    ∃ p : List Cell, p.length = w + 1 ∧ p.Nodup ∧ p.head? = some c ∧
      p.IsChain (FlowStep w h fd nd) := by
  obtain ⟨out', e1, e2⟩ := C81_reports_long_paths w h fd nd hw hw' hv c hc
  rw [e1] at e
  injection e with e
  subst e
  obtain ⟨p, h1, h2, h3⟩ := e2.1 hb
  by_cases hn : p.Nodup
  · exact .inr ⟨p, h1, hn, h2, h3⟩
  · left
    clear h1 e1 e2 hb
    induction p generalizing c with
    | nil => exact absurd List.nodup_nil hn
    | cons x p ih =>
      simp at h2
      subst h2
      have hreach : ∀ (p : List Cell) (x : Cell), (x :: p).IsChain (FlowStep w h fd nd) → ∀ y ∈ p,
          TransGen (FlowStep w h fd nd) x y := by
        intro p
        induction p with
        | nil => simp
        | cons z p ih =>
          intro x hch y hy
          rw [List.isChain_cons_cons] at hch
          rcases List.mem_cons.1 hy with rfl | hy
          · exact .single hch.1
          · exact .head hch.1 (ih z hch.2 y hy)
      by_cases hx : x ∈ p
      · exact ⟨x, .refl, hreach p x h3 x hx⟩
      · have hn' : ¬ p.Nodup := fun k => hn (List.nodup_cons.2 ⟨hx, k⟩)
        cases p with
        | nil => exact absurd List.nodup_nil hn'
        | cons y p =>
          rw [List.isChain_cons_cons] at h3
          obtain ⟨a, k1, k2⟩ := ih y h3.1.2.2.2.2 rfl h3.2 hn'
          exact ⟨a, .head h3.1 k1, k2⟩

/-- C81, refuted for narrow rasters: on a raster less than ten columns wide `rd_loop_check` never
prints anything, loops or not (`max_path_length - 10` wraps around). -/
theorem C81_narrow_refuted (hw : w < 10) (hv : ∀ c, InGrid w h c → fd c = nd ∨ fd c ≤ 8) (c : Cell)
    (hc : InGrid w h c) : loopFollow w h fd nd c = some [] := by
  have hs : ∀ k, k ≤ 2 ^ 64 - 11 → ¬ sizeSub w 10 < k := by
    intro k hk; unfold sizeSub; omega
  have key : ∀ fuel pl c, InGrid w h c → pl + fuel ≤ 10 → ∃ b, followLoop w h fd nd fuel pl c = some ([], b) := by
    intro fuel
    induction fuel with
    | zero => intro pl c _ _; exact ⟨true, rfl⟩
    | succ k ih =>
      intro pl c hc hb
      unfold followLoop
      dsimp only
      rw [if_neg (hs _ (by omega))]
      by_cases h1 : fd c = nd ∨ fd c = 0
      · rw [if_pos h1]; exact ⟨_, rfl⟩
      · rw [if_neg h1, if_neg (by push Not at h1; rcases hv c hc with k | k; exacts [absurd k h1.1, by omega])]
        by_cases h2 : InGrid w h (nbr .D8 c (fd c))
        · rw [if_pos (inGrid_iff.2 h2)]
          obtain ⟨b, e⟩ := ih (pl + 1) _ h2 (by omega)
          rw [e]; exact ⟨b, rfl⟩
        · rw [if_neg (by rw [inGrid_iff]; exact h2)]; exact ⟨_, rfl⟩
  obtain ⟨b, e⟩ := key w 0 c hc (by omega)
  unfold loopFollow
  rw [e]
  dsimp only [Option.map_some]
  rw [if_neg (hs _ (by omega))]
  simp

end

/-- C81: such a loop that is missed: two cells flowing into each other. -/
example : TransGen (FlowStep 2 1 (ofRows 0 [[5, 1]]) 255) (0, 0) (0, 0) :=
  .tail (.single (b := (1, 0)) (by unfold FlowStep InGrid; decide +kernel))
    (by unfold FlowStep InGrid; decide +kernel)

/-- C81, refuted (false alarm): ten columns, two rows, flow along the first row, down, and back
along the second; no loop, and yet the first cell is reported. -/
theorem C81_false_alarm_refuted :
    (loopFollow 10 2 (ofRows 0 [[5, 5, 5, 5, 5, 5, 5, 5, 5, 7], [0, 1, 1, 1, 1, 1, 1, 1, 1, 1]]) 255
      (0, 0)).map (fun o => decide (LoopLine.blank ∈ o)) = some true := by decide +kernel

/-- Non-vacuity for the wide case: a loop in a raster ten columns wide is reported. -/
example : (loopFollow 10 1 (ofRows 0 [[5, 5, 1, 0, 0, 0, 0, 0, 0, 0]]) 255 (0, 0)).map
    (fun o => decide (LoopLine.blank ∈ o)) = some true := by decide +kernel

/-! ### C82: rd_flood_for_flowdirs -/

section
variable {E : Type*} [LinearOrder E] (pq : PQ (E × Cell) zLt) (w h : Nat) (dem : Cell → E) (nd : E)

/-- C82, north-up rasters (`geotransform[5] ≤ 0`): following the saved directions leads from every
data cell of the filled DEM out of the data region, without loops. -/
theorem C82_north_up_partial (hw : 0 < w) (hh : 0 < h) (gt1 gt5 : Int) (h1 : 0 ≤ gt1) (h5 : gt5 ≤ 0) :
    ∃ out, floodForFlowdirs pq w h gt1 gt5 dem nd = some out ∧
      ∀ c, InGrid w h c → (priorityFloodBarnes pq w h .D8 dem).elev c ≠ nd →
        (1 ≤ out c ∧ out c ≤ 8) ∧
        ∃ e, ExitsAt w h (priorityFloodBarnes pq w h .D8 dem).elev nd out e ∧
          ReflTransGen (D8FlowsTo w h out FLOWDIR_NO_DATA) c e := by
  refine ⟨_, by unfold floodForFlowdirs; rw [if_neg (by omega), if_neg (by omega)], fun c hc hd => ?_⟩
  exact C53_depression_free w h _ nd (C07_filled_drains pq w h .D8 dem hw hh).2 c hc hd

/-- The direction code seen in a mirror lying along a row: 2 and 8, 3 and 7, 4 and 6 change
places. -/
def mirrorCode (n : Nat) : Nat := [0, 1, 8, 7, 6, 5, 4, 3, 2].getD n n

theorem mirror_nbr (c : Cell) (n : Nat) (hn : n ≤ 8) :
    nbr .D8 (c.1, (h : Int) - 1 - c.2) n =
      ((nbr .D8 c (mirrorCode n)).1, (h : Int) - 1 - (nbr .D8 c (mirrorCode n)).2) := by
  have h1 : ∀ n ≤ 8, dx .D8 n = dx .D8 (mirrorCode n) ∧ dy .D8 n = - dy .D8 (mirrorCode n) := by
    decide
  obtain ⟨h2, h3⟩ := h1 n hn
  simp only [nbr, h2, h3, Prod.mk.injEq, true_and]
  omega

/-- Turning the raster upside down. -/
def upDown (h : Nat) (c : Cell) : Cell := (c.1, (h : Int) - 1 - c.2)

theorem upDown_inGrid {c : Cell} (hc : InGrid w h c) : InGrid w h (upDown h c) := by
  unfold InGrid upDown at *; dsimp only; omega

theorem upDown_inv (c : Cell) : upDown h (upDown h c) = c := by
  unfold upDown; ext <;> simp

theorem upDown_inGrid_iff {c : Cell} : InGrid w h (upDown h c) ↔ InGrid w h c :=
  ⟨fun k => by simpa [upDown_inv] using upDown_inGrid w h k, upDown_inGrid w h⟩

theorem upDown_path {c : Cell} {p : List Cell} (hp : EscapePath w h .D8 c p) :
    EscapePath w h .D8 (upDown h c) (p.map (upDown h)) := by
  refine ⟨by rw [List.head?_map, hp.head]; rfl, ?_, ?_, ?_⟩
  · rw [List.isChain_map]
    refine hp.chain.imp fun a b hab => ?_
    unfold Adj upDown at *
    refine ⟨fun k => hab.1 ?_, ?_, ?_⟩
    · rw [Prod.mk.injEq] at k
      exact Prod.ext k.1 (by omega)
    · exact hab.2.1
    · have := hab.2.2
      dsimp only
      omega
  · intro q hq
    obtain ⟨a, ha, rfl⟩ := List.mem_map.1 hq
    exact upDown_inGrid w h (hp.inGrid a ha)
  · obtain ⟨e, h1, h2, h3⟩ := hp.last
    refine ⟨upDown h e, by rw [List.getLast?_map, h1]; rfl, upDown_inGrid w h h2, ?_⟩
    unfold upDown; dsimp only; omega

theorem flipRows_upDown {A : Type*} (f : Cell → A) (x : Cell) : flipRows h f (upDown h x) = f x :=
  congrArg f (upDown_inv h x)

/-- Filling commutes with turning the raster upside down. -/
theorem filled_upDown {out : Cell → E} (hf : IsFilled w h .D8 (flipRows h dem) out) :
    IsFilled w h .D8 dem (flipRows h out) := by
  intro c hc
  have hl := hf (upDown h c) (upDown_inGrid w h hc)
  constructor
  · obtain ⟨p, h1, h2⟩ := hl.attained
    refine ⟨p.map (upDown h), by simpa [upDown_inv] using upDown_path w h h1, fun q hq => ?_⟩
    obtain ⟨a, ha, rfl⟩ := List.mem_map.1 hq
    exact h2 a ha
  · intro p hp
    obtain ⟨q, h1, h2⟩ := hl.least _ (upDown_path w h hp)
    obtain ⟨a, ha, rfl⟩ := List.mem_map.1 h1
    refine ⟨a, ha, ?_⟩
    have : flipRows h dem (upDown h a) = dem a := congrArg dem (upDown_inv h a)
    rwa [this] at h2

/-- C82, south-up rasters (`geotransform[5] > 0`): what is saved drains the filled DEM when north
and south are exchanged in each code. -/
theorem C82_south_up_partial (hw : 0 < w) (hh : 0 < h) (gt1 gt5 : Int) (h1 : 0 ≤ gt1) (h5 : 0 < gt5) :
    ∃ out, floodForFlowdirs pq w h gt1 gt5 dem nd = some out ∧
      ∃ filled : Cell → E, IsFilled w h .D8 dem filled ∧
      ∀ c, InGrid w h c → filled c ≠ nd →
        ∃ e, ExitsAt w h filled nd (fun a => mirrorCode (out a)) e ∧
          ReflTransGen (D8FlowsTo w h (fun a => mirrorCode (out a)) FLOWDIR_NO_DATA) c e := by
  refine ⟨_, by unfold floodForFlowdirs; rw [if_neg (by omega), if_pos h5], ?_⟩
  set F := (priorityFloodBarnes pq w h .D8 (flipRows h dem)).elev with hF
  have hfill : IsFilled w h .D8 (flipRows h dem) F := C05_barnes_is_fill pq w h .D8 _ hw hh
  refine ⟨flipRows h F, filled_upDown w h dem hfill, fun c hc hd => ?_⟩
  obtain ⟨e, he, hpath⟩ := (C53_depression_free w h F nd (C07_filled_drains pq w h .D8 _ hw hh).2
    (upDown h c) (upDown_inGrid w h hc) hd).2
  have hm0 : ∀ n, (mirrorCode n ≠ FLOWDIR_NO_DATA ↔ n ≠ FLOWDIR_NO_DATA) ∧
      (n ≤ 8 → (mirrorCode n ≠ 0 ↔ n ≠ 0) ∧ mirrorCode n ≤ 8 ∧ (1 ≤ n → 1 ≤ mirrorCode n) ∧
        mirrorCode (mirrorCode n) = n) := by
    intro n
    by_cases hn : n ≤ 8
    · have : ∀ n ≤ 8, (mirrorCode n ≠ FLOWDIR_NO_DATA ↔ n ≠ FLOWDIR_NO_DATA) ∧
          ((mirrorCode n ≠ 0 ↔ n ≠ 0) ∧ mirrorCode n ≤ 8 ∧ (1 ≤ n → 1 ≤ mirrorCode n) ∧
            mirrorCode (mirrorCode n) = n) := by decide
      exact ⟨(this n hn).1, fun _ => (this n hn).2⟩
    · have : mirrorCode n = n := by
        unfold mirrorCode
        rw [List.getD_eq_getElem?_getD, List.getElem?_eq_none (by simp; omega)]
        rfl
      rw [this]
      exact ⟨Iff.rfl, fun k => absurd k hn⟩
  set fd := barnesFlatResolutionD8 w h F nd with hfd
  have hle : ∀ a, InGrid w h a → F a ≠ nd → fd a ≤ 8 := fun a ha hda => (C53_values w h F nd a ha).2 hda
  have hnd : ∀ a, InGrid w h a → (fd a ≠ FLOWDIR_NO_DATA ↔ F a ≠ nd) := fun a ha =>
    not_congr (C53_values w h F nd a ha).1
  -- steps correspond
  have hnb : ∀ a, fd a ≤ 8 → upDown h (nbr .D8 a (fd a)) = nbr .D8 (upDown h a) (mirrorCode (fd a)) := by
    intro a ha
    have h2 := mirror_nbr h a (mirrorCode (fd a)) ((hm0 (fd a)).2 ha).2.1
    rw [((hm0 (fd a)).2 ha).2.2.2] at h2
    exact h2.symm
  have hstep : ∀ a b, D8FlowsTo w h fd FLOWDIR_NO_DATA a b →
      D8FlowsTo w h (fun x => mirrorCode (flipRows h fd x)) FLOWDIR_NO_DATA (upDown h a) (upDown h b) := by
    rintro a b ⟨⟨a1, a2⟩, ⟨b1, b2⟩, h0, rfl⟩
    have ha8 := hle a a1 ((hnd a a1).1 a2)
    have e1 : ∀ x, flipRows h fd (upDown h x) = fd x := fun x => congrArg fd (upDown_inv h x)
    refine ⟨⟨upDown_inGrid w h a1, ?_⟩, ⟨upDown_inGrid w h b1, ?_⟩, ?_, ?_⟩
    · dsimp only; rw [e1]; exact (hm0 _).1.2 a2
    · dsimp only; rw [e1]; exact (hm0 _).1.2 b2
    · dsimp only; rw [e1]; exact ((hm0 _).2 ha8).1.2 h0
    · dsimp only; rw [e1]; exact hnb a ha8
  refine ⟨upDown h e, ?_, ?_⟩
  · obtain ⟨g1, g2, ⟨g3, g4⟩, g5⟩ := he
    refine ⟨upDown_inGrid w h g1, by rw [flipRows_upDown]; exact g2, ?_, ?_⟩
    · dsimp only; rw [flipRows_upDown]; exact ⟨((hm0 _).2 g4).2.2.1 g3, ((hm0 _).2 g4).2.1⟩
    · dsimp only
      rw [flipRows_upDown, ← hnb e g4, upDown_inGrid_iff, flipRows_upDown]
      exact g5
  · have : ReflTransGen (D8FlowsTo w h (fun x => mirrorCode (flipRows h fd x)) FLOWDIR_NO_DATA)
        (upDown h (upDown h c)) (upDown h e) := by
      generalize upDown h c = c' at hpath
      clear hd he
      induction hpath with
      | refl => exact .refl
      | tail _ k ih => exact ih.tail (hstep _ _ k)
    rwa [upDown_inv] at this

/-- C82, refuted for south-up rasters: a slope without any depression, falling to row 0; as saved,
the centre cell flows to the cell below it and that cell flows back. -/
theorem C82_south_up_refuted : ∃ out,
    floodForFlowdirs zPQ 3 3 1 1 (ofRows (-9999 : Int) [[1, 1, 1], [2, 2, 2], [3, 3, 3]]) (-9999) =
      some out ∧ TransGen (D8FlowsTo 3 3 out FLOWDIR_NO_DATA) (1, 1) (1, 1) := by
  refine ⟨_, rfl, .tail (.single (b := (1, 2)) ?_) ?_⟩
  · decide +kernel
  · decide +kernel

/-- Non-vacuity: the same slope, north-up. -/
example : (floodForFlowdirs zPQ 3 3 1 (-1) (ofRows (-9999 : Int) [[1, 1, 1], [2, 2, 2], [3, 3, 3]])
      (-9999)).map (toRows 3 3) = some [[2, 3, 4], [1, 3, 5], [8, 7, 6]] := by decide +kernel

end

end RichDEM
