/-
Property theorems C46 and C66 (breaching, Lindsay2016).

`top` stands for `numeric_limits<elev_t>::max()`, `dn` for `nextafter(·, lowest)` and `up` for
`nextafter(·, max)`.
-/
import Verif.BreachThm
import Verif.Props.Flood

namespace RichDEM

variable {E : Type*} [LinearOrder E]

/-- C46: `CompleteBreaching_Lindsay2016` stops, and in its result every data cell has a path through
data cells to the raster's edge or to a NoData cell along which elevations never increase.  For
both topologies, every raster and every order in which the heap returns equal elevations. -/
theorem C46_drained (pq : PQ (E × Cell) zLt) (t : Topo) (w h : Nat) (nd top : E) (dem : Cell → E)
    (htop : ∀ c, InGrid w h c → dem c ≤ top) :
    lsStep (carve (w * h) id) pq t w h nd (completeBreaching pq t w h nd top id dem) = none ∧
    ∀ c, InGrid w h c → dem c ≠ nd → ∃ p, DataPath w h t dem nd c p ∧
      p.IsChain (fun a b => (completeBreaching pq t w h nd top id dem).dem b ≤
        (completeBreaching pq t w h nd top id dem).dem a) := by
  obtain ⟨k1, _, k3⟩ := complete_final (t := t) (w := w) (h := h) (dem := dem) (nd := nd) (G := fun x => x ≠ nd) pq (top := top)
    (dn := id) (fun _ => le_rfl) (fun _ _ hxy => hxy.le) (fun _ h => h) (fun _ h => h) (fun c hc => hc.2) htop
  exact ⟨k1, fun c hc hn => (k3 c ⟨hc, hn⟩).path⟩

/-- C46: breaching only lowers terrain, except that a cell lower than all its neighbours may end up
higher than it was, but not higher than any neighbour was.  NoData cells stay NoData and data cells
stay data. -/
theorem C46_lowers (pq : PQ (E × Cell) zLt) (t : Topo) (w h : Nat) (nd top : E) (dem : Cell → E)
    (htop : ∀ c, InGrid w h c → dem c ≤ top) (c : Cell) (hc : InGrid w h c) :
    ((completeBreaching pq t w h nd top id dem).dem c ≤ dem c ∨
      ∀ q, Adj t c q → dem c < dem q ∧ (completeBreaching pq t w h nd top id dem).dem c ≤ dem q) ∧
    ((completeBreaching pq t w h nd top id dem).dem c = nd ↔ dem c = nd) := by
  obtain ⟨_, I, _⟩ := complete_final (t := t) (w := w) (h := h) (dem := dem) (nd := nd) (G := fun x => x ≠ nd) pq (top := top)
    (dn := id) (fun _ => le_rfl) (fun _ _ hxy => hxy.le) (fun _ h => h) (fun _ h => h) (fun c hc => hc.2) htop
  have S := lsInit_ok (t := t) (w := w) (h := h) (dem := dem) (nd := nd) (G := fun x => x ≠ nd) pq (top := top)
    (dn := id) (fun _ => le_rfl) (fun _ _ hxy => hxy.le) (fun _ h => h) (fun _ h => h) (fun c hc => hc.2) htop
  refine ⟨?_, I.nodata c hc⟩
  by_cases he : (lsInit pq t w h nd top id dem).dem c = dem c
  · left; rw [← he]; exact I.le c
  · right
    intro q hq
    have hs := S.strict c he q hq
    refine ⟨hs, (I.le c).trans ?_⟩
    have h1 := S.pitlow c ((S.raised c).2 he) q hq
    by_cases hqe : (lsInit pq t w h nd top id dem).dem q = dem q
    · rw [← hqe]; exact h1
    · exact absurd (hs.trans (S.strict q hqe c hq.symm)) (lt_irrefl _)

/-- C46: the same for `Lindsay2016` in complete mode with `eps_gradients`, where each cell of a
carved path is made lower than the one before; `G` are the elevations the carving may produce. -/
theorem C46_eps_drained (pq : PQ (E × Cell) zLt) (t : Topo) (w h : Nat) (nd top : E) (dn : E → E) (dem : Cell → E)
    (hdn : ∀ x, dn x ≤ x) (hdn2 : ∀ x y, x < y → x ≤ dn y) (G : E → Prop) (hG : ∀ x, G x → G (dn x) ∧ x ≠ nd)
    (hGd : ∀ c, InGrid w h c → dem c ≠ nd → G (dem c)) (htop : ∀ c, InGrid w h c → dem c ≤ top) :
    lsStep (carve (w * h) dn) pq t w h nd (completeBreaching pq t w h nd top dn dem) = none ∧
    (∀ c, InGrid w h c → dem c ≠ nd → ∃ p, DataPath w h t dem nd c p ∧
      p.IsChain (fun a b => (completeBreaching pq t w h nd top dn dem).dem b ≤
        (completeBreaching pq t w h nd top dn dem).dem a)) := by
  obtain ⟨k1, _, k3⟩ := complete_final (t := t) (w := w) (h := h) (dem := dem) (nd := nd) (G := G) pq (top := top)
    (dn := dn) hdn hdn2 (fun x hx => (hG x hx).1) (fun x hx => (hG x hx).2) (fun c hc => hGd c hc.1 hc.2) htop
  exact ⟨k1, fun c hc hn => (k3 c ⟨hc, hn⟩).path⟩

/-- The hypotheses are met by a terrain with two pits, and the terrain is changed. -/
example : (∀ c ∈ allCells 5 4, exDem c ≤ 100) ∧
    toRows 5 4 (completeBreaching zPQ .D8 5 4 (-9999) 100 id exDem).dem =
      [[9, 9, 9, 9, 3], [9, 1, 2, 7, 9], [9, 2, 1, 1, 9], [9, 9, 9, 9, 1]] ∧
    toRows 5 4 (completeBreaching zPQ .D4 5 4 (-9999) 100 id exDem).dem =
      [[9, 2, 9, 9, 3], [9, 2, 2, 7, 9], [9, 2, 2, 6, 9], [9, 9, 9, 9, 4]] := by decide +kernel

/-- With NoData (0): the pit is breached towards the hole. -/
example : toRows 5 5 (completeBreaching zPQ .D8 5 5 0 100 id
      (ofRows 0 [[9, 9, 9, 9, 9], [9, 3, 9, 9, 9], [9, 9, 7, 9, 9], [9, 9, 9, 0, 9], [9, 9, 9, 9, 9]])).dem =
    [[9, 9, 9, 9, 9], [9, 7, 9, 9, 9], [9, 9, 7, 9, 9], [9, 9, 9, 0, 9], [9, 9, 9, 9, 9]] := by decide +kernel

example : (∀ x : Int, x - 1 ≤ x) ∧ (∀ x y : Int, x < y → x ≤ y - 1) ∧
    (∀ x : Int, x < 1000 → x - 1 < 1000 ∧ x ≠ 1000) ∧
    toRows 5 4 (completeBreaching zPQ .D8 5 4 1000 2000 (· - 1) exDem).dem =
      [[9, 9, 9, 9, 3], [9, 1, 2, 7, 9], [9, 2, 0, -1, 9], [9, 9, 9, 9, -2]] :=
  ⟨fun _ => by omega, fun _ _ _ => by omega, fun _ _ => by omega, by decide +kernel⟩

/-! ## C66: limited breaching followed by filling -/

/-- C66 (partial): `Lindsay2016` stops whatever is done with the pits, and after its flooding phase
every cell that was visited before the loop ended has a path to the edge or to NoData along which
elevations never increase.  Missing: cells not visited when the loop breaks off at the last pit
(see `C66_flooding_misses_cells`). -/
theorem C66_visited_drained_partial (breach : (Cell → E) → (Cell → Option Cell) → Cell → CV E)
    (pq : PQ (E × Cell) zLt) (w h : Nat) (nd top : E) (dn up : E → E) (dem : Cell → E)
    (hdn : ∀ x, dn x ≤ x) (hdn2 : ∀ x y, x < y → x ≤ dn y) (hup : ∀ x, x ≤ up x)
    (G : E → Prop) (hG : ∀ x, G x → G (dn x) ∧ x ≠ nd)
    (hGd : ∀ c, InGrid w h c → dem c ≠ nd → G (dem c)) (htop : ∀ c, InGrid w h c → dem c ≤ top) :
    lsStep breach pq .D8 w h nd (lsRun breach pq .D8 w h nd top dn dem) = none ∧
    ∀ c, (lsRun breach pq .D8 w h nd top dn dem).vis c = true →
      FallsOut .D8 (fun x => InGrid w h x) (bout .D8 w h dem nd)
        (lsFlood up (lsRun breach pq .D8 w h nd top dn dem)).dem c := by
  obtain ⟨I, hn⟩ := lsRun_tree (t := .D8) (w := w) (h := h) (dem := dem) (nd := nd) (G := G) breach pq (top := top)
    (dn := dn) hdn hdn2 (fun x hx => (hG x hx).1) (fun x hx => (hG x hx).2) (fun c hc => hGd c hc.1 hc.2) htop
  refine ⟨hn, ?_⟩
  intro c hc
  obtain ⟨_, _, k3⟩ := lsFlood_ok hup I
  have hf := I.links.falls (dem := (lsFlood up (lsRun breach pq .D8 w h nd top dn dem)).dem)
    (fun f p hfp => (k3 f p hfp).1) hc
  clear hc
  induction hf with
  | out a b => exact .out (I.visg _ a) b
  | step a b c _ ih => exact .step (I.visg _ a) b c ih

/-- C66: with `eps_gradients` each visited cell without access to the edge or NoData is strictly
higher than the cell its back-link points to. -/
theorem C66_eps_strict (breach : (Cell → E) → (Cell → Option Cell) → Cell → CV E)
    (pq : PQ (E × Cell) zLt) (w h : Nat) (nd top : E) (dn up : E → E) (dem : Cell → E)
    (hdn : ∀ x, dn x ≤ x) (hdn2 : ∀ x y, x < y → x ≤ dn y) (hup : ∀ x, x < up x)
    (G : E → Prop) (hG : ∀ x, G x → G (dn x) ∧ x ≠ nd)
    (hGd : ∀ c, InGrid w h c → dem c ≠ nd → G (dem c)) (htop : ∀ c, InGrid w h c → dem c ≤ top)
    (c : Cell) (hc : (lsRun breach pq .D8 w h nd top dn dem).vis c = true) (ho : ¬ bout .D8 w h dem nd c) :
    ∃ p, Adj .D8 c p ∧ (lsRun breach pq .D8 w h nd top dn dem).vis p = true ∧
      (lsFlood up (lsRun breach pq .D8 w h nd top dn dem)).dem p <
      (lsFlood up (lsRun breach pq .D8 w h nd top dn dem)).dem c := by
  obtain ⟨I, hn⟩ := lsRun_tree (t := .D8) (w := w) (h := h) (dem := dem) (nd := nd) (G := G) breach pq (top := top)
    (dn := dn) hdn hdn2 (fun x hx => (hG x hx).1) (fun x hx => (hG x hx).2) (fun c hc => hGd c hc.1 hc.2) htop
  obtain ⟨_, _, k3⟩ := lsFlood_ok (fun x => (hup x).le) I
  cases hb : (lsRun breach pq .D8 w h nd top dn dem).back c with
  | none => exact absurd (I.links.root c hc hb) ho
  | some p =>
    obtain ⟨_, h2, h3⟩ := I.links.link c p hb
    exact ⟨p, h3, h2, (k3 c p hb).2 hup⟩

/-- A terrain in which the last pit is taken from the queue before cell (5,2) has been visited. -/
def lindsayEx : Cell → Int := ofRows 0
  [[9, 9, 9, 5, 9, 9, 9], [9, 9, 1, 2, 3, 9, 9], [9, 9, 9, 9, 9, 4, 9], [9, 9, 9, 9, 9, 9, 9]]

/-- C66: the loop ends as soon as the last pit has been taken from the queue; the flooding then
raises only the cells visited by that time and can dam up others.  Here selective breaching (no
path is short enough) with filling raises (4,1) to 5 and leaves (5,2), which drained through (4,1),
at 4: a depression that did not drain before still does not, although filling was asked for. -/
theorem C66_flooding_misses_cells :
    toRows 7 4 (lindsayLimited zPQ 7 4 (-9999) 100 (-100) id id false true 0 0 lindsayEx).dem =
      [[9, 9, 9, 5, 9, 9, 9], [9, 9, 5, 5, 5, 9, 9], [9, 9, 9, 9, 9, 4, 9], [9, 9, 9, 9, 9, 9, 9]] ∧
    hasDepressions zPQ 7 4 .D8
      (lindsayLimited zPQ 7 4 (-9999) 100 (-100) id id false true 0 0 lindsayEx).dem = true := by
  decide +kernel

/-- When everything is visited the flooding fills: the same terrain without the cell at (5,2). -/
example : hasDepressions zPQ 7 4 .D8 (lindsayLimited zPQ 7 4 (-9999) 100 (-100) id id false true 0 0
    (Function.update lindsayEx (5, 2) 9)).dem = false := by decide +kernel

end RichDEM
