/-
Model of `PriorityFlood_Wei2018` (include/richdem/depressions/Wei2018.hpp).

Simplifications: elevations range over a linear order (no NaN); the heap allows every order of equal
elevations; the 5x5 array `Mask` is indexed by cell instead of by offset (its indices
`ny-node.y+2` lie in 0..4 since the cells looked at are at most two steps from the node).  The
ghost flag `safe` records whether every access to the rasters was inside them: unlike the main
loop, the two inner functions do not test `inGrid`.
-/
import Verif.Zhou

namespace RichDEM

variable {E : Type*} [LinearOrder E]

/-- Wei2018.hpp:30-44: body of the neighbour loop around a NoData cell. -/
def weiInitNbr (pq : PQ (E × Cell) zLt) (w h : Nat) (nd : E) (c : Cell) (s : TS E) (n : Nat) : TS E :=
  let q := nbr .D8 c n
  if inGrid w h q = false then s                                          -- :34-35
  else if s.lab q then s                                                  -- :37-38
  else if s.elev q = nd then s                                            -- :40
  else { s with pq := pq.push (s.elev q, q) s.pq, lab := Function.update s.lab q true }  -- :41-42

/-- Wei2018.hpp:25-50: one cell of `InitPriorityQue`. -/
def weiInitCell (pq : PQ (E × Cell) zLt) (w h : Nat) (nd : E) (s : TS E) (c : Cell) : TS E :=
  if s.lab c then s                                                       -- :26
  else if s.elev c = nd then                                              -- :28
    (dirs .D8).foldl (weiInitNbr pq w h nd c) { s with lab := Function.update s.lab c true }  -- :29-44
  else if isEdgeCell w h c then                                           -- :45
    { s with pq := pq.push (s.elev c, c) s.pq, lab := Function.update s.lab c true }  -- :47-48
  else s

/-- Wei2018.hpp:16-52 `InitPriorityQue`. -/
def weiInit (pq : PQ (E × Cell) zLt) (w h : Nat) (dem : Cell → E) (nd : E) : TS E :=
  (allCells w h).foldl (weiInitCell pq w h nd)
    { elev := dem, lab := fun _ => false, pq := [], dep := [], trace := [], pot := [], safe := true }

/-- Wei2018.hpp:134-150: body of the neighbour loop of `ProcessPit`. -/
def weiPitNbr (w h : Nat) (e : E × Cell) (s : TS E) (n : Nat) : TS E :=
  let q := nbr .D8 e.2 n
  let s := { s with safe := s.safe && inGrid w h q }
  if s.lab q then s                                                       -- :137-138
  else if e.1 < s.elev q then s.slope q                                   -- :140-145
  else s.pit e.1 q                                                        -- :147-150

/-- Wei2018.hpp:131-152: one iteration of the loop of `ProcessPit`. -/
def weiPitStep (w h : Nat) (s : TS E) : Option (TS E) :=
  match s.dep with
  | [] => none
  | e :: r => some ((dirs .D8).foldl (weiPitNbr w h e) { s with dep := r })

/-- The local variables of the neighbour loop of `ProcessTraceQue`; `fin` is the `break`. -/
structure WT (E : Type*) where
  s : TS E
  mask : Cell → Bool
  fin : Bool

/-- Wei2018.hpp:81-92: does the neighbour have a spill path or a lower spill outlet. -/
def weiSpill (s : TS E) (mask : Cell → Bool) (e : E × Cell) (q : Cell) : Bool :=
  (dirs .D8).any fun k =>
    let r := nbr .D8 q k
    mask r || (s.lab r && decide (s.elev r < e.1))

/-- Wei2018.hpp:68-102: body of the neighbour loop of `ProcessTraceQue`. -/
def weiTraceNbr (pq : PQ (E × Cell) zLt) (w h : Nat) (e : E × Cell) (t : WT E) (n : Nat) : WT E :=
  if t.fin then t
  else
    let q := nbr .D8 e.2 n
    let s := { t.s with safe := t.s.safe && inGrid w h q }
    if s.lab q then { t with s := s }                                     -- :71-72
    else if e.1 < s.elev q then { t with s := s.slope q }                 -- :74-76
    else
      let s := { s with safe := s.safe && (dirs .D8).all (fun k => inGrid w h (nbr .D8 q k)) }
      if weiSpill s t.mask e q then
        { t with s := s, mask := Function.update t.mask q true }          -- :87-88
      else if n < 2 then
        { t with s := { s with pot := s.pot ++ [e] }, fin := true }       -- :96, :99
      else { t with s := { s with pq := pq.push e s.pq }, fin := true }   -- :98, :99

/-- Wei2018.hpp:64-103: one iteration of the first loop of `ProcessTraceQue`. -/
def weiTraceStep (pq : PQ (E × Cell) zLt) (w h : Nat) (s : TS E) : Option (TS E) :=
  match s.trace with
  | [] => none
  | e :: r => some ((dirs .D8).foldl (weiTraceNbr pq w h e) ⟨{ s with trace := r }, fun _ => false, false⟩).s

/-- Wei2018.hpp:105-119: one iteration of the second loop of `ProcessTraceQue`. -/
def weiPotStep (pq : PQ (E × Cell) zLt) (w h : Nat) (s : TS E) : Option (TS E) :=
  match s.pot with
  | [] => none
  | e :: r =>
    let s := { s with pot := r, safe := s.safe && (dirs .D8).all (fun n => inGrid w h (nbr .D8 e.2 n)) }
    some (if (dirs .D8).any (fun n => !s.lab (nbr .D8 e.2 n)) then { s with pq := pq.push e s.pq } else s)

/-- Wei2018.hpp:56-120 `ProcessTraceQue`. -/
def weiTrace (pq : PQ (E × Cell) zLt) (w h : Nat) (s : TS E) : TS E :=
  let s := loop (weiTraceStep pq w h) (w * h) s
  loop (weiPotStep pq w h) s.pot.length s

/-- Wei2018.hpp:176-197: body of the neighbour loop of the main loop. -/
def weiNbr (pq : PQ (E × Cell) zLt) (w h : Nat) (c : E × Cell) (s : TS E) (n : Nat) : TS E :=
  let q := nbr .D8 c.2 n
  if inGrid w h q = false then s                                          -- :180-181
  else if s.lab q then s                                                  -- :183-184
  else
    let s1 := if s.elev q ≤ c.1 then loop (weiPitStep w h) (w * h) (s.pit c.1 q)  -- :187-192
              else s.slope q                                              -- :193-197
    weiTrace pq w h s1                                                    -- :198

/-- Wei2018.hpp:172-200: one iteration of the main loop. -/
def weiStep (pq : PQ (E × Cell) zLt) (w h : Nat) (s : TS E) : Option (TS E) :=
  match pq.pop s.pq with
  | none => none
  | some (c, r) => some ((dirs .D8).foldl (weiNbr pq w h c) { s with pq := r })

/-- Wei2018.hpp:156-204 `PriorityFlood_Wei2018`. -/
def priorityFloodWei (pq : PQ (E × Cell) zLt) (w h : Nat) (dem : Cell → E) (nd : E) : TS E :=
  loop (weiStep pq w h) (floodFuel w h) (weiInit pq w h dem nd)

/-! ### Invariants -/

variable {reg out : Cell → Prop} {dem : Cell → E} {w h : Nat} {ex : List Cell} {z : E} {S M : Nat} {nd : E}

/-- What keeps the unchecked accesses inside the raster: the edge is labelled from the start, so the
cells in the queues are interior ones. -/
structure WX (w h : Nat) (reg out : Cell → Prop) (s : TS E) : Prop where
  edge : ∀ c, OnEdge w h c → s.lab c = true
  outl : ∀ c, reg c → out c → s.lab c = true
  dep : ∀ e ∈ s.dep, ¬ OnEdge w h e.2
  trace : ∀ e ∈ s.trace, ¬ OnEdge w h e.2
  pot : ∀ e ∈ s.pot, ¬ OnEdge w h e.2
  safe : s.safe = true

theorem interior_nbr {c : Cell} (hc : InGrid w h c) (he : ¬ OnEdge w h c) {n : Nat} (hn : n ∈ dirs .D8) :
    InGrid w h (nbr .D8 c n) := by
  have ha := nbr_adj (c := c) hn
  obtain ⟨_, h1, h2⟩ := ha
  obtain ⟨x, y⟩ := c
  simp only [OnEdge, not_and] at he
  have he := he hc
  simp only [InGrid] at hc ⊢
  omega

/-- The `reg` and `out` of a raster with NoData value `nd`. -/
def wreg (w h : Nat) (dem : Cell → E) (nd : E) (c : Cell) : Prop := InGrid w h c ∧ dem c ≠ nd
def wout (w h : Nat) (dem : Cell → E) (nd : E) (c : Cell) : Prop :=
  OnEdge w h c ∨ ∃ b, Adj .D8 c b ∧ InGrid w h b ∧ dem b = nd

/-- All neighbours of an unlabelled cell are data cells of the raster. -/
theorem WX.nb {s : TS E} (X : WX w h (wreg w h dem nd) (wout w h dem nd) s) {q : Cell} (hq : wreg w h dem nd q)
    (hl : s.lab q = false) {n : Nat} (hn : n ∈ dirs .D8) : wreg w h dem nd (nbr .D8 q n) := by
  have he : ¬ OnEdge w h q := fun h => by rw [X.edge q h] at hl; cases hl
  have hg := interior_nbr hq.1 he hn
  refine ⟨hg, fun hnd => ?_⟩
  have := X.outl q hq (Or.inr ⟨_, nbr_adj hn, hg, hnd⟩)
  rw [hl] at this; cases this

theorem WX.slope {s : TS E} (X : WX w h reg out s) {q : Cell} (hl : s.lab q = false) : WX w h reg out (s.slope q) := by
  have kp := keep_slope hl
  have he : ¬ OnEdge w h q := fun h => by rw [X.edge q h] at hl; cases hl
  refine ⟨fun c h => (kp c (X.edge c h)).1, fun c a b => (kp c (X.outl c a b)).1, X.dep, ?_, X.pot, X.safe⟩
  intro e hm
  rcases List.mem_append.1 hm with hm | hm
  · exact X.trace e hm
  · rw [List.mem_singleton] at hm; subst hm; exact he

theorem WX.pit {s : TS E} (X : WX w h reg out s) {q : Cell} (hl : s.lab q = false) : WX w h reg out (s.pit z q) := by
  have kp := keep_pit (z := z) hl
  have he : ¬ OnEdge w h q := fun h => by rw [X.edge q h] at hl; cases hl
  refine ⟨fun c h => (kp c (X.edge c h)).1, fun c a b => (kp c (X.outl c a b)).1, ?_, X.trace, X.pot, X.safe⟩
  intro e hm
  rcases List.mem_append.1 hm with hm | hm
  · exact X.dep e hm
  · rw [List.mem_singleton] at hm; subst hm; exact he

/-- The ghost flag does not matter. -/
theorem TSI.setSafe {s : TS E} {b : Bool} (I : TSI w h reg out dem s ex) :
    TSI w h reg out dem { s with safe := b } ex :=
  ⟨I.inv, I.pqok, I.outq, I.depok, I.traceok, I.potok, I.bud, I.regs, I.unreg⟩
theorem TSZ.setSafe {s : TS E} {b : Bool} (Z : TSZ reg out dem z s) : TSZ reg out dem z { s with safe := b } :=
  ⟨Z.low, Z.front, Z.depz⟩
theorem Ph.setSafe {s : TS E} {b : Bool} (P : Ph w h reg out dem z ex S M s) :
    Ph w h reg out dem z ex S M { s with safe := b } := ⟨P.I.setSafe, P.Z.setSafe, P.sz, P.mu⟩
theorem WX.setSafe {s : TS E} (X : WX w h reg out s) : WX w h reg out { s with safe := true } :=
  ⟨X.edge, X.outl, X.dep, X.trace, X.pot, rfl⟩

theorem weiPitNbr_ok {e : E × Cell} {s : TS E} {n : Nat} (hn : n ∈ dirs .D8)
    (P : Ph w h reg out dem z (e.2 :: ex) S M s) (X : WX w h reg out s) (hc : reg e.2)
    (hx : ¬ OnEdge w h e.2) (hl : s.lab e.2 = true) (he : s.elev e.2 = z) (hz : e.1 = z) :
    (Ph w h reg out dem z (e.2 :: ex) S M (weiPitNbr w h e s n) ∧ WX w h reg out (weiPitNbr w h e s n)) ∧
    Keep s (weiPitNbr w h e s n) ∧
    (InGrid w h (nbr .D8 e.2 n) → (weiPitNbr w h e s n).lab (nbr .D8 e.2 n) = true) ∧
    (weiPitNbr w h e s n).pot = s.pot := by
  have hg := interior_nbr (P.I.regs _ hc) hx hn
  unfold weiPitNbr
  simp only
  have hsafe : (s.safe && inGrid w h (nbr .D8 e.2 n)) = true := by
    rw [X.safe, inGrid_iff.2 hg]; rfl
  rw [hsafe]
  have P' := P.setSafe (b := true)
  have X' := X.setSafe
  set s' : TS E := { s with safe := true } with hs'
  have hk : Keep s s' := fun x hx => ⟨hx, rfl⟩
  have hl' : s'.lab e.2 = true := hl
  have he' : s'.elev e.2 = z := he
  by_cases h2 : s'.lab (nbr .D8 e.2 n) = true
  · rw [if_pos h2]; exact ⟨⟨P', X'⟩, hk, fun _ => h2, rfl⟩
  rw [if_neg h2]
  have h2' : s'.lab (nbr .D8 e.2 n) = false := by simpa using h2
  have hr := P.I.unreg _ hg h2'
  by_cases h3 : e.1 < s'.elev (nbr .D8 e.2 n)
  · rw [if_pos h3]
    obtain ⟨a, b, d, m⟩ := P'.I.slope P'.Z hr h2' hc hl' (nbr_adj hn) (by rw [he', ← hz]; exact h3.le)
    exact ⟨⟨⟨a, b, by rw [d]; exact P'.sz, by rw [m]; exact P'.mu⟩, X'.slope h2'⟩, hk.trans (keep_slope h2'),
      fun _ => by simp [TS.slope], rfl⟩
  · rw [if_neg h3, hz]
    rw [hz] at h3
    obtain ⟨a, b, d, m⟩ := P'.I.pit P'.Z hr h2' hc hl' (nbr_adj hn) he' (not_lt.1 h3)
    exact ⟨⟨⟨a, b, by rw [d]; exact P'.sz, by rw [m]; exact P'.mu⟩, X'.pit h2'⟩, hk.trans (keep_pit h2'),
      fun _ => by simp [TS.pit], rfl⟩

theorem weiPitLoop_ok {s : TS E} (P : Ph w h reg out dem z ex S M s) (X : WX w h reg out s) :
    (Ph w h reg out dem z ex S M (loop (weiPitStep w h) (w * h) s) ∧
      WX w h reg out (loop (weiPitStep w h) (w * h) s)) ∧
    Keep s (loop (weiPitStep w h) (w * h) s) ∧
    (loop (weiPitStep w h) (w * h) s).dep = [] ∧ (loop (weiPitStep w h) (w * h) s).pot = s.pot := by
  have key := loop_spec (step := weiPitStep w h)
    (fun t => (Ph w h reg out dem z ex S M t ∧ WX w h reg out t) ∧ Keep s t ∧ t.pot = s.pot)
    (fun t => t.mu w h) ?_ (w * h) s ⟨⟨P, X⟩, Keep.refl s, rfl⟩ P.I.bud
  · obtain ⟨⟨k1, k2, k3⟩, k4⟩ := key
    refine ⟨k1, k2, ?_, k3⟩
    unfold weiPitStep at k4
    split at k4
    · assumption
    · cases k4
  · rintro t t' ⟨⟨Pt, Xt⟩, Kt, pt⟩ hst
    unfold weiPitStep at hst
    cases hd : t.dep with
    | nil => rw [hd] at hst; cases hst
    | cons e r =>
      rw [hd] at hst
      simp only [Option.some.injEq] at hst
      have hmem : e ∈ t.dep := by rw [hd]; exact List.mem_cons_self
      obtain ⟨e1, e2, e3⟩ := Pt.I.depok e hmem
      have e4 := Pt.Z.depz e hmem
      have e5 := Xt.dep e hmem
      obtain ⟨I', Z', s', m'⟩ := Pt.I.popDep Pt.Z hd
      have P' : Ph w h reg out dem z (e.2 :: ex) S (t.mu w h - 1) { t with dep := r } :=
        ⟨I', Z', by have := Pt.sz; omega, by omega⟩
      have X' : WX w h reg out { t with dep := r } :=
        ⟨Xt.edge, Xt.outl, fun x hx => Xt.dep x (by rw [hd]; exact List.mem_cons_of_mem _ hx), Xt.trace, Xt.pot, Xt.safe⟩
      obtain ⟨q1, q2, q3, q4⟩ := foldl_keep (z := z) (w := w) (h := h) (f := weiPitNbr w h e) (c := e.2)
        (fun t' => Ph w h reg out dem z (e.2 :: ex) S (t.mu w h - 1) t' ∧ WX w h reg out t') (dirs .D8)
        { t with dep := r } e3 ⟨P', X'⟩
        (fun s n hn hP hl he => weiPitNbr_ok hn hP.1 hP.2 e1 e5 hl he e4) (by rw [← e4, e2])
      rw [hst] at q1 q2 q3 q4
      have Q := q1.1.dropAll q3
      refine ⟨⟨⟨⟨Q.I, Q.Z, Q.sz, ?_⟩, q1.2⟩, Kt.trans (fun x hx => q2 x hx), q4.trans pt⟩, ?_⟩
      · have := Q.mu; have := Pt.mu; omega
      · have := Q.mu; omega

/-! ### Tracing -/

/-- The invariant of the neighbour loop of the trace. -/
structure WP (w h : Nat) (dem : Cell → E) (nd : E) (z : E) (ex : List Cell) (S M : Nat)
    (e : E × Cell) (s0 : TS E) (t : WT E) : Prop where
  P : Ph w h (wreg w h dem nd) (wout w h dem nd) dem z (e.2 :: ex) S M t.s
  X : WX w h (wreg w h dem nd) (wout w h dem nd) t.s
  szb : t.s.size w h + (if t.fin then 0 else 1) ≤ S
  keep : Keep s0 t.s
  inK : t.fin = true → t.s.K ex e.2
  mask : ∀ x, t.mask x = true → Reach (wreg w h dem nd) dem t.s.lab t.s.elev (t.s.K ex) (t.s.elev e.2) x
  dep : t.s.dep = s0.dep

/-- The neighbour `u` of `c` needs no further attention. -/
def WDone (reg : Cell → Prop) (dem : Cell → E) (ex : List Cell) (c : Cell) (u : Cell) (t : WT E) : Prop :=
  t.fin = true ∨ t.s.lab u = true ∨ Reach reg dem t.s.lab t.s.elev (t.s.K ex) (t.s.elev c) u

omit [LinearOrder E] in
theorem K_pushPQ [LinearOrder E] {pq : PQ (E × Cell) zLt} {s : TS E} {e : E × Cell} {b : Bool} {k : Cell} (hk : s.K ex k) :
    ({ s with safe := b, pq := pq.push e s.pq } : TS E).K ex k := by
  rcases hk with hk | hk | hk | hk | hk
  · obtain ⟨x, hx, rfl⟩ := List.mem_map.1 hk
    exact Or.inl (List.mem_map_of_mem (pq.mem_push.2 (Or.inr hx)))
  · exact Or.inr (Or.inl hk)
  · exact Or.inr (Or.inr (Or.inl hk))
  · exact Or.inr (Or.inr (Or.inr (Or.inl hk)))
  · exact Or.inr (Or.inr (Or.inr (Or.inr hk)))

omit [LinearOrder E] in
theorem K_pushPot {s : TS E} {e : E × Cell} {b : Bool} {k : Cell} (hk : s.K ex k) :
    ({ s with safe := b, pot := s.pot ++ [e] } : TS E).K ex k := by
  rcases hk with hk | hk | hk | hk | hk
  · exact Or.inl hk
  · exact Or.inr (Or.inl hk)
  · exact Or.inr (Or.inr (Or.inl hk))
  · obtain ⟨x, hx, rfl⟩ := List.mem_map.1 hk
    exact Or.inr (Or.inr (Or.inr (Or.inl (List.mem_map_of_mem (List.mem_append_left _ hx)))))
  · exact Or.inr (Or.inr (Or.inr (Or.inr hk)))

theorem weiTraceNbr_ok {pq : PQ (E × Cell) zLt} {e : E × Cell} {s0 : TS E} {t : WT E} {n : Nat}
    (hn : n ∈ dirs .D8) (hc : wreg w h dem nd e.2) (hx : ¬ OnEdge w h e.2) (hl : s0.lab e.2 = true)
    (he : e.1 = s0.elev e.2) (T : WP w h dem nd z ex S M e s0 t) :
    WP w h dem nd z ex S M e s0 (weiTraceNbr pq w h e t n) ∧
    WDone (wreg w h dem nd) dem ex e.2 (nbr .D8 e.2 n) (weiTraceNbr pq w h e t n) ∧
    ∀ u, WDone (wreg w h dem nd) dem ex e.2 u t →
      WDone (wreg w h dem nd) dem ex e.2 u (weiTraceNbr pq w h e t n) := by
  obtain ⟨hlc, hec⟩ := T.keep e.2 hl
  rw [← he] at hec
  unfold weiTraceNbr
  by_cases hf : t.fin = true
  · rw [if_pos hf]
    exact ⟨T, Or.inl hf, fun _ h => h⟩
  rw [if_neg hf]
  simp only
  have hf' : t.fin = false := by simpa using hf
  have hg := interior_nbr hc.1 hx hn
  set q := nbr .D8 e.2 n with hqd
  have hsafe : (t.s.safe && inGrid w h q) = true := by
    rw [T.X.safe, inGrid_iff.2 hg]; rfl
  rw [hsafe]
  have P' := T.P.setSafe (b := true)
  have X' := T.X.setSafe
  have hsz := T.szb
  rw [hf'] at hsz
  simp only [Bool.false_eq_true, if_false] at hsz
  by_cases h2 : t.s.lab q = true
  · rw [if_pos h2]
    exact ⟨⟨P', X', T.szb, T.keep, T.inK, T.mask, T.dep⟩, Or.inr (Or.inl h2), fun _ h => h⟩
  rw [if_neg h2]
  have h2' : t.s.lab q = false := by simpa using h2
  have hr := T.P.I.unreg _ hg h2'
  have hsame := T.P.I.inv.same q hr h2'
  by_cases h3 : e.1 < t.s.elev q
  · rw [if_pos h3]
    set s' : TS E := { t.s with safe := true } with hs'
    obtain ⟨a, b, d, m⟩ := P'.I.slope P'.Z hr h2' hc hlc (nbr_adj hn) (by rw [show s'.elev e.2 = t.s.elev e.2 from rfl, hec]; exact h3.le)
    have kp : Keep t.s (s'.slope q) := keep_slope (s := s') h2'
    have hreach : ∀ u, (s'.slope q).lab u = false →
        Reach (wreg w h dem nd) dem t.s.lab t.s.elev (t.s.K ex) (t.s.elev e.2) u →
        Reach (wreg w h dem nd) dem (s'.slope q).lab (s'.slope q).elev ((s'.slope q).K ex) ((s'.slope q).elev e.2) u := by
      intro u hu hd
      exact Reach.slope (s := s') h2' hr hsame hu hd
    refine ⟨⟨⟨a, b, by rw [d]; exact T.P.sz, by rw [m]; exact T.P.mu⟩, X'.slope h2', ?_, T.keep.trans kp, ?_, ?_, T.dep⟩,
      Or.inr (Or.inl (by simp [TS.slope])), ?_⟩
    · rw [d]; exact T.szb
    · intro h; rw [hf'] at h; cases h
    · intro x hm
      have hd := T.mask x hm
      obtain ⟨k, _, _, _, _, hp⟩ := id hd
      refine hreach x ?_ hd
      have hxq : x ≠ q := by
        rintro rfl
        have := hp.head.2.2
        rw [hec, ← hsame] at this
        exact absurd h3 (not_lt.2 this)
      show Function.update t.s.lab q true x = false
      rw [Function.update_of_ne hxq]; exact hp.head.2.1
    · intro u hd
      rcases hd with hd | hd | hd
      · rw [hf'] at hd; cases hd
      · exact Or.inr (Or.inl (kp u hd).1)
      · by_cases hlu : (s'.slope q).lab u = true
        · exact Or.inr (Or.inl hlu)
        · exact Or.inr (Or.inr (hreach u (by simpa using hlu) hd))
  rw [if_neg h3]
  have hsafe2 : (true && (dirs .D8).all (fun k => inGrid w h (nbr .D8 q k))) = true := by
    rw [Bool.true_and, List.all_eq_true]
    intro k hk
    rw [inGrid_iff]
    exact (T.X.nb hr h2' hk).1
  rw [hsafe2]
  have hle : dem q ≤ t.s.elev e.2 := by rw [← hsame, hec]; exact not_lt.1 h3
  by_cases h5 : weiSpill { t.s with safe := true } t.mask e q = true
  · rw [if_pos h5]
    have hR : Reach (wreg w h dem nd) dem t.s.lab t.s.elev (t.s.K ex) (t.s.elev e.2) q := by
      unfold weiSpill at h5
      rw [List.any_eq_true] at h5
      obtain ⟨k, hk, hx⟩ := h5
      rw [Bool.or_eq_true, Bool.and_eq_true, decide_eq_true_eq] at hx
      rcases hx with hx | ⟨x1, x2⟩
      · obtain ⟨k', k1, k2, k3, k4, k5⟩ := T.mask _ hx
        exact ⟨k', k1, k2, k3, k4, .step hr h2' hle (nbr_adj hk) k5⟩
      · have := T.P.I.inv.spill (c := e.2) (T.X.nb hr h2' hk) hr x1 h2' (nbr_adj hk).symm
          (by rw [hec]; exact x2) hle
        exact this.mono (fun k hk => K_ne hk.1 hk.2) le_rfl
    refine ⟨⟨P', X', T.szb, T.keep, T.inK, ?_, T.dep⟩, Or.inr (Or.inr hR), fun _ h => h⟩
    intro x hm
    by_cases hxq : x = q
    · rw [hxq]; exact hR
    · have hm : Function.update t.mask q true x = true := hm
      rw [Function.update_of_ne hxq] at hm
      exact T.mask x hm
  rw [if_neg h5]
  by_cases h6 : n < 2
  · rw [if_pos h6]
    obtain ⟨a, b, d, f⟩ := P'.I.pushPot (e := e) hc (by rw [← hec]) hlc
    have f' : ({ t.s with safe := true, pot := t.s.pot ++ [e] } : TS E).K ex e.2 :=
      Or.inr (Or.inr (Or.inr (Or.inl (List.mem_map_of_mem (List.mem_append_right _ List.mem_cons_self)))))
    have dK : ∀ k, t.s.K ex k → ({ t.s with safe := true, pot := t.s.pot ++ [e] } : TS E).K ex k :=
      fun k hk => K_pushPot hk
    refine ⟨⟨⟨a, ⟨T.P.Z.low, T.P.Z.front, T.P.Z.depz⟩, by rw [b]; exact hsz, T.P.mu⟩, ?_, ?_, T.keep, fun _ => f', ?_, T.dep⟩,
      Or.inl rfl, fun _ _ => Or.inl rfl⟩
    · refine ⟨X'.edge, X'.outl, X'.dep, X'.trace, ?_, rfl⟩
      intro y hy
      rcases List.mem_append.1 hy with hy | hy
      · exact T.X.pot y hy
      · rw [List.mem_singleton] at hy; subst hy; exact hx
    · rw [b]; exact hsz
    · intro x hm; exact (T.mask x hm).mono dK le_rfl
  · rw [if_neg h6]
    obtain ⟨a, b, d, f⟩ := P'.I.pushPQ (pq := pq) (e := e) hc (by rw [← hec]) hlc
    refine ⟨⟨⟨a, ⟨T.P.Z.low, T.P.Z.front, T.P.Z.depz⟩, by rw [b]; exact hsz, T.P.mu⟩, ?_, ?_, T.keep, fun _ => ?_, ?_, T.dep⟩,
      Or.inl rfl, fun _ _ => Or.inl rfl⟩
    · exact ⟨X'.edge, X'.outl, X'.dep, X'.trace, X'.pot, rfl⟩
    · rw [b]; exact hsz
    · exact Or.inl (List.mem_map_of_mem (pq.mem_push.2 (Or.inl rfl)))
    · intro x hm; exact (T.mask x hm).mono (fun k hk => K_pushPQ (pq := pq) hk) le_rfl

theorem weiTraceLoop_ok {pq : PQ (E × Cell) zLt}
    {s : TS E} (P : Ph w h (wreg w h dem nd) (wout w h dem nd) dem z ex S M s)
    (X : WX w h (wreg w h dem nd) (wout w h dem nd) s) :
    (Ph w h (wreg w h dem nd) (wout w h dem nd) dem z ex S M (loop (weiTraceStep pq w h) (w * h) s) ∧
      WX w h (wreg w h dem nd) (wout w h dem nd) (loop (weiTraceStep pq w h) (w * h) s)) ∧
    Keep s (loop (weiTraceStep pq w h) (w * h) s) ∧
    (loop (weiTraceStep pq w h) (w * h) s).trace = [] ∧
    (loop (weiTraceStep pq w h) (w * h) s).dep = s.dep := by
  have key := loop_spec (step := weiTraceStep pq w h)
    (fun t => (Ph w h (wreg w h dem nd) (wout w h dem nd) dem z ex S M t ∧
      WX w h (wreg w h dem nd) (wout w h dem nd) t) ∧ Keep s t ∧ t.dep = s.dep)
    (fun t => t.mu w h) ?_ (w * h) s ⟨⟨P, X⟩, Keep.refl s, rfl⟩ P.I.bud
  · obtain ⟨⟨k1, k2, k3⟩, k4⟩ := key
    refine ⟨k1, k2, ?_, k3⟩
    unfold weiTraceStep at k4
    split at k4
    · assumption
    · cases k4
  · rintro t t' ⟨⟨Pt, Xt⟩, Kt, dt⟩ hst
    unfold weiTraceStep at hst
    cases hd : t.trace with
    | nil => rw [hd] at hst; cases hst
    | cons e r =>
      rw [hd] at hst
      simp only [Option.some.injEq] at hst
      have hmem : e ∈ t.trace := by rw [hd]; exact List.mem_cons_self
      obtain ⟨e1, e2, e3⟩ := Pt.I.traceok e hmem
      have e5 := Xt.trace e hmem
      obtain ⟨I', s', m'⟩ := Pt.I.popTrace hd
      have P' : Ph w h (wreg w h dem nd) (wout w h dem nd) dem z (e.2 :: ex) S (t.mu w h - 1) { t with trace := r } :=
        ⟨I', ⟨Pt.Z.low, Pt.Z.front, Pt.Z.depz⟩, by have := Pt.sz; omega, by omega⟩
      have X' : WX w h (wreg w h dem nd) (wout w h dem nd) { t with trace := r } :=
        ⟨Xt.edge, Xt.outl, Xt.dep, fun x hx => Xt.trace x (by rw [hd]; exact List.mem_cons_of_mem _ hx), Xt.pot, Xt.safe⟩
      have T0 : WP w h dem nd z ex S (t.mu w h - 1) e { t with trace := r } ⟨{ t with trace := r }, fun _ => false, false⟩ :=
        ⟨P', X', by have := Pt.sz; simp only [Bool.false_eq_true, if_false]; omega, Keep.refl _,
          fun h => absurd h (by simp), fun x h => absurd h (by simp), rfl⟩
      obtain ⟨q1, q2, _⟩ := foldl_inv (f := weiTraceNbr pq w h e)
        (WP w h dem nd z ex S (t.mu w h - 1) e { t with trace := r })
        (fun n sb => WDone (wreg w h dem nd) dem ex e.2 (nbr .D8 e.2 n) sb) (dirs .D8)
        ⟨{ t with trace := r }, fun _ => false, false⟩
        (fun sb n hn hP => ⟨(weiTraceNbr_ok (s0 := { t with trace := r }) hn e1 e5 e3 e2 hP).1,
          (weiTraceNbr_ok (s0 := { t with trace := r }) hn e1 e5 e3 e2 hP).2.1⟩)
        (fun sb n m hn hP hR => (weiTraceNbr_ok (s0 := { t with trace := r }) hn e1 e5 e3 e2 hP).2.2 _ hR) T0
      set res := (dirs .D8).foldl (weiTraceNbr pq w h e) ⟨{ t with trace := r }, fun _ => false, false⟩ with hres
      rw [← hst]
      have D : TSI w h (wreg w h dem nd) (wout w h dem nd) dem res.s ex := by
        refine q1.P.I.drop ?_
        intro u hu hlu ha
        obtain ⟨n, hn, rfl⟩ := adj_iff_nbr.1 ha
        rcases q2 n hn with h | h | h
        · exact Or.inl (q1.inK h)
        · rw [hlu] at h; cases h
        · exact Or.inr h
      refine ⟨⟨⟨⟨D, q1.P.Z, q1.P.sz, ?_⟩, q1.X⟩, Kt.trans (fun x hx => q1.keep x hx), q1.dep.trans dt⟩, ?_⟩
      · have := q1.P.mu; have := Pt.mu; omega
      · have := q1.P.mu; omega

theorem weiPotLoop_ok {pq : PQ (E × Cell) zLt}
    {s : TS E} (P : Ph w h reg out dem z ex S M s) (X : WX w h reg out s) :
    (Ph w h reg out dem z ex S M (loop (weiPotStep pq w h) s.pot.length s) ∧
      WX w h reg out (loop (weiPotStep pq w h) s.pot.length s)) ∧
    Keep s (loop (weiPotStep pq w h) s.pot.length s) ∧
    (loop (weiPotStep pq w h) s.pot.length s).pot = [] ∧
    (loop (weiPotStep pq w h) s.pot.length s).trace = s.trace ∧
    (loop (weiPotStep pq w h) s.pot.length s).dep = s.dep := by
  have key := loop_spec (step := weiPotStep pq w h)
    (fun t => (Ph w h reg out dem z ex S M t ∧ WX w h reg out t) ∧ Keep s t ∧ t.trace = s.trace ∧ t.dep = s.dep)
    (fun t => t.pot.length) ?_ s.pot.length s ⟨⟨P, X⟩, Keep.refl s, rfl, rfl⟩ le_rfl
  · obtain ⟨⟨k1, k2, k3, k5⟩, k4⟩ := key
    refine ⟨k1, k2, ?_, k3, k5⟩
    unfold weiPotStep at k4
    split at k4
    · assumption
    · cases k4
  · rintro t t' ⟨⟨Pt, Xt⟩, Kt, tt, dt⟩ hst
    unfold weiPotStep at hst
    cases hd : t.pot with
    | nil => rw [hd] at hst; cases hst
    | cons e r =>
      rw [hd] at hst
      simp only [Option.some.injEq] at hst
      have hmem : e ∈ t.pot := by rw [hd]; exact List.mem_cons_self
      obtain ⟨e1, e2, e3⟩ := Pt.I.potok e hmem
      have e5 := Xt.pot e hmem
      have hsafe : (t.safe && (dirs .D8).all (fun n => inGrid w h (nbr .D8 e.2 n))) = true := by
        rw [Xt.safe, Bool.true_and, List.all_eq_true]
        intro k hk
        exact inGrid_iff.2 (interior_nbr (Pt.I.regs _ e1) e5 hk)
      rw [hsafe] at hst
      obtain ⟨I', s'⟩ := Pt.I.popPot hd
      have I2 := I'.setSafe (b := true)
      have X2 : WX w h reg out { t with pot := r, safe := true } :=
        ⟨Xt.edge, Xt.outl, Xt.dep, Xt.trace, fun x hx => Xt.pot x (by rw [hd]; exact List.mem_cons_of_mem _ hx), rfl⟩
      have Z2 : TSZ reg out dem z { t with pot := r, safe := true } := ⟨Pt.Z.low, Pt.Z.front, Pt.Z.depz⟩
      have hsz : ({ t with pot := r, safe := true } : TS E).size w h + 1 = t.size w h := s'
      have hS := Pt.sz
      by_cases hany : (dirs .D8).any (fun n => !t.lab (nbr .D8 e.2 n)) = true
      · rw [if_pos hany] at hst
        subst hst
        obtain ⟨a, b, d, f⟩ := I2.pushPQ (pq := pq) (e := e) e1 e2 e3
        refine ⟨⟨⟨⟨a.drop ?_, ⟨Z2.low, Z2.front, Z2.depz⟩, (by rw [b]; change ({ t with pot := r, safe := true } : TS E).size w h + 1 ≤ S; omega), Pt.mu⟩, ?_⟩, Kt, tt, dt⟩, by simp⟩
        · intro u _ _ _
          exact Or.inl (Or.inl (List.mem_map_of_mem (pq.mem_push.2 (Or.inl rfl))))
        · exact ⟨X2.edge, X2.outl, X2.dep, X2.trace, X2.pot, rfl⟩
      · rw [if_neg hany] at hst
        subst hst
        refine ⟨⟨⟨⟨I2.drop ?_, Z2, by omega, Pt.mu⟩, X2⟩, Kt, tt, dt⟩, by simp⟩
        intro u _ hlu ha
        obtain ⟨n, hn, rfl⟩ := adj_iff_nbr.1 ha
        exfalso
        apply hany
        rw [List.any_eq_true]
        exact ⟨n, hn, by
          have hlu : t.lab (nbr .D8 e.2 n) = false := hlu
          simp [hlu]⟩

/-! ### The main loop -/

theorem weiNbr_ok {pq : PQ (E × Cell) zLt} {c : E × Cell} {s : TS E} {n : Nat} (hn : n ∈ dirs .D8)
    (P : Ph w h (wreg w h dem nd) (wout w h dem nd) dem c.1 [c.2] S M s)
    (X : WX w h (wreg w h dem nd) (wout w h dem nd) s) (hd : s.dep = [] ∧ s.trace = [] ∧ s.pot = [])
    (hc : wreg w h dem nd c.2) (hl : s.lab c.2 = true) (he : s.elev c.2 = c.1) :
    (Ph w h (wreg w h dem nd) (wout w h dem nd) dem c.1 [c.2] S M (weiNbr pq w h c s n) ∧
      WX w h (wreg w h dem nd) (wout w h dem nd) (weiNbr pq w h c s n) ∧
      ((weiNbr pq w h c s n).dep = [] ∧ (weiNbr pq w h c s n).trace = [] ∧ (weiNbr pq w h c s n).pot = [])) ∧
    Keep s (weiNbr pq w h c s n) ∧
    (InGrid w h (nbr .D8 c.2 n) → (weiNbr pq w h c s n).lab (nbr .D8 c.2 n) = true) ∧
    (weiNbr pq w h c s n).pot = s.pot := by
  unfold weiNbr
  simp only
  set q := nbr .D8 c.2 n with hqd
  by_cases h1 : inGrid w h q = false
  · rw [if_pos h1]
    exact ⟨⟨P, X, hd⟩, Keep.refl s, fun h => absurd h (inGrid_false.1 h1), rfl⟩
  rw [if_neg h1]
  have hg : InGrid w h q := by rw [← inGrid_iff]; simpa using h1
  by_cases h2 : s.lab q = true
  · rw [if_pos h2]; exact ⟨⟨P, X, hd⟩, Keep.refl s, fun _ => h2, rfl⟩
  rw [if_neg h2]
  have h2' : s.lab q = false := by simpa using h2
  have hr := P.I.unreg _ hg h2'
  set s1 := if s.elev q ≤ c.1 then loop (weiPitStep w h) (w * h) (s.pit c.1 q) else s.slope q with hs1
  have K1 : (Ph w h (wreg w h dem nd) (wout w h dem nd) dem c.1 [c.2] S M s1 ∧
      WX w h (wreg w h dem nd) (wout w h dem nd) s1) ∧ Keep s s1 ∧ s1.dep = [] ∧ s1.lab q = true := by
    rw [hs1]
    by_cases h3 : s.elev q ≤ c.1
    · rw [if_pos h3]
      obtain ⟨a, b, d, m⟩ := P.I.pit P.Z hr h2' hc hl (nbr_adj hn) he h3
      obtain ⟨p1, p2, p3, p4⟩ := weiPitLoop_ok (s := s.pit c.1 q)
        (⟨a, b, by rw [d]; exact P.sz, by rw [m]; exact P.mu⟩ : Ph w h (wreg w h dem nd) (wout w h dem nd) dem c.1 [c.2] S M (s.pit c.1 q))
        (X.pit h2')
      exact ⟨p1, (keep_pit h2').trans p2, p3, (p2 q (by simp [TS.pit])).1⟩
    · rw [if_neg h3]
      obtain ⟨a, b, d, m⟩ := P.I.slope P.Z hr h2' hc hl (nbr_adj hn) (by rw [he]; exact (not_le.1 h3).le)
      exact ⟨⟨⟨a, b, by rw [d]; exact P.sz, by rw [m]; exact P.mu⟩, X.slope h2'⟩, keep_slope h2', hd.1, by simp [TS.slope]⟩
  obtain ⟨⟨k1, k1'⟩, k2, k3, k5⟩ := K1
  obtain ⟨⟨p1, p1'⟩, p2, p3, p5⟩ := weiTraceLoop_ok (pq := pq) k1 k1'
  obtain ⟨⟨r1, r1'⟩, r2, r3, r4, r5⟩ := weiPotLoop_ok (pq := pq) p1 p1'
  refine ⟨⟨r1, r1', r5.trans (p5.trans k3), r4.trans p3, r3⟩, k2.trans (p2.trans r2), fun _ => (r2 q (p2 q k5).1).1, ?_⟩
  rw [hd.2.2]; exact r3

theorem weiStep_ok {pq : PQ (E × Cell) zLt} {s s' : TS E}
    (Z : ZTop w h (wreg w h dem nd) (wout w h dem nd) dem s)
    (X : WX w h (wreg w h dem nd) (wout w h dem nd) s) (hst : weiStep pq w h s = some s') :
    (ZTop w h (wreg w h dem nd) (wout w h dem nd) dem s' ∧ WX w h (wreg w h dem nd) (wout w h dem nd) s' ∧
      Keep s s') ∧ s'.size w h < s.size w h := by
  unfold weiStep at hst
  cases hp : pq.pop s.pq with
  | none => rw [hp] at hst; cases hst
  | some r =>
    obtain ⟨c, r⟩ := r
    rw [hp] at hst
    simp only [Option.some.injEq] at hst
    obtain ⟨hperm, _⟩ := pq.pop_some hp
    have hcl : s.lab c.2 = true := by
      obtain ⟨a, _, b⟩ := Z.I.pqok c (hperm.mem_iff.2 List.mem_cons_self)
      rcases b with b | b
      · exact b
      · exact X.outl _ a b
    obtain ⟨I', Z', hsz, hc, he⟩ := Z.I.popPQ hp Z.dep Z.trace Z.pot
    rw [show Function.update s.lab c.2 true = s.lab from by rw [← hcl]; exact Function.update_eq_self _ _] at I' Z' hsz
    set s1 : TS E := { s with pq := r } with hs1
    have X1 : WX w h (wreg w h dem nd) (wout w h dem nd) s1 := ⟨X.edge, X.outl, X.dep, X.trace, X.pot, X.safe⟩
    have P1 : Ph w h (wreg w h dem nd) (wout w h dem nd) dem c.1 [c.2] (s1.size w h) (s1.mu w h) s1 :=
      ⟨I', Z', le_rfl, le_rfl⟩
    obtain ⟨q1, q2, q3, q4⟩ := foldl_keep (z := c.1) (w := w) (h := h) (f := weiNbr pq w h c) (c := c.2)
      (fun t => Ph w h (wreg w h dem nd) (wout w h dem nd) dem c.1 [c.2] (s1.size w h) (s1.mu w h) t ∧
        WX w h (wreg w h dem nd) (wout w h dem nd) t ∧ (t.dep = [] ∧ t.trace = [] ∧ t.pot = []))
      (dirs .D8) s1 hcl ⟨P1, X1, Z.dep, Z.trace, Z.pot⟩
      (fun t n hn hP hl he => weiNbr_ok hn hP.1 hP.2.1 hP.2.2 hc hl he) he.symm
    rw [hst] at q1 q2 q3 q4
    have Q := q1.1.dropAll q3
    exact ⟨⟨⟨Q.I, q1.2.2.1, q1.2.2.2.1, q1.2.2.2.2⟩, q1.2.1, fun x hx => q2 x hx⟩, Q.sz.trans_lt hsz⟩

/-! ### Initialisation -/

/-- The invariant of `InitPriorityQue`. -/
structure WInit (w h : Nat) (dem : Cell → E) (nd : E) (s : TS E) : Prop where
  elev : s.elev = dem
  qs : s.dep = [] ∧ s.trace = [] ∧ s.pot = [] ∧ s.safe = true
  lab : ∀ c, s.lab c = true → InGrid w h c ∧ (dem c ≠ nd → (dem c, c) ∈ s.pq)
  pq : ∀ e ∈ s.pq, InGrid w h e.2 ∧ e.1 = dem e.2 ∧ dem e.2 ≠ nd ∧ wout w h dem nd e.2 ∧ s.lab e.2 = true
  size : s.pq.length + unflagged w h s.lab ≤ w * h

/-- A cell may be labelled and pushed. -/
theorem WInit.push {pq : PQ (E × Cell) zLt} {s : TS E} (I : WInit w h dem nd s) {q : Cell} (hg : InGrid w h q)
    (hl : s.lab q = false) (hd : dem q ≠ nd) (ho : wout w h dem nd q) :
    WInit w h dem nd { s with pq := pq.push (s.elev q, q) s.pq, lab := Function.update s.lab q true } := by
  have hun := unflagged_update hg hl
  refine ⟨I.elev, I.qs, ?_, ?_, ?_⟩
  · intro c hc
    by_cases h : c = q
    · subst h; exact ⟨hg, fun _ => pq.mem_push.2 (Or.inl (by rw [I.elev]))⟩
    · have hc : Function.update s.lab q true c = true := hc
      rw [Function.update_of_ne h] at hc
      exact ⟨(I.lab c hc).1, fun hn => pq.mem_push.2 (Or.inr ((I.lab c hc).2 hn))⟩
  · intro e he
    rcases pq.mem_push.1 he with rfl | he
    · exact ⟨hg, by rw [I.elev], hd, ho, by simp⟩
    · obtain ⟨a, b, c, d, f⟩ := I.pq e he
      refine ⟨a, b, c, d, ?_⟩
      show Function.update s.lab q true e.2 = true
      by_cases h : e.2 = q
      · rw [h]; simp
      · rwa [Function.update_of_ne h]
  · have := I.size
    show (pq.push (s.elev q, q) s.pq).length + unflagged w h (Function.update s.lab q true) ≤ w * h
    rw [pq.length_push]; omega

theorem weiInitNbr_ok {pq : PQ (E × Cell) zLt} {c : Cell} {s : TS E} {n : Nat} (hn : n ∈ dirs .D8)
    (hc : InGrid w h c) (hcn : dem c = nd) (I : WInit w h dem nd s) :
    WInit w h dem nd (weiInitNbr pq w h nd c s n) ∧
    (∀ x, s.lab x = true → (weiInitNbr pq w h nd c s n).lab x = true) ∧
    (InGrid w h (nbr .D8 c n) → dem (nbr .D8 c n) ≠ nd → (weiInitNbr pq w h nd c s n).lab (nbr .D8 c n) = true) := by
  unfold weiInitNbr
  simp only
  by_cases h1 : inGrid w h (nbr .D8 c n) = false
  · rw [if_pos h1]; exact ⟨I, fun _ h => h, fun h => absurd h (inGrid_false.1 h1)⟩
  rw [if_neg h1]
  have hg : InGrid w h (nbr .D8 c n) := by rw [← inGrid_iff]; simpa using h1
  by_cases h2 : s.lab (nbr .D8 c n) = true
  · rw [if_pos h2]; exact ⟨I, fun _ h => h, fun _ _ => h2⟩
  rw [if_neg h2]
  by_cases h3 : s.elev (nbr .D8 c n) = nd
  · rw [if_pos h3]
    rw [I.elev] at h3
    exact ⟨I, fun _ h => h, fun _ h => absurd h3 h⟩
  rw [if_neg h3]
  rw [I.elev] at h3
  refine ⟨?_, ?_, fun _ _ => by simp⟩
  · exact I.push hg (by simpa using h2) h3 (Or.inr ⟨c, (nbr_adj hn).symm, hc, hcn⟩)
  · intro x hx
    show Function.update s.lab (nbr .D8 c n) true x = true
    by_cases h : x = nbr .D8 c n
    · rw [h]; simp
    · rwa [Function.update_of_ne h]

/-- What is known of a cell once it has been visited: it is labelled if it is NoData or on the edge,
and if it is NoData so are its neighbours. -/
def WSeen (w h : Nat) (dem : Cell → E) (nd : E) (c : Cell) (s : TS E) : Prop :=
  (dem c = nd ∨ OnEdge w h c → s.lab c = true) ∧
  (dem c = nd → ∀ b, Adj .D8 c b → InGrid w h b → dem b ≠ nd → s.lab b = true)

theorem weiInitCell_ok {pq : PQ (E × Cell) zLt} {c : Cell} {s : TS E} (hc : InGrid w h c)
    (I : WInit w h dem nd s) (J : ∀ c, s.lab c = true → dem c = nd → WSeen w h dem nd c s) :
    WInit w h dem nd (weiInitCell pq w h nd s c) ∧
    (∀ d, (weiInitCell pq w h nd s c).lab d = true → dem d = nd → WSeen w h dem nd d (weiInitCell pq w h nd s c)) ∧
    WSeen w h dem nd c (weiInitCell pq w h nd s c) ∧
    (∀ x, s.lab x = true → (weiInitCell pq w h nd s c).lab x = true) := by
  have mono : ∀ {s s' : TS E} {d : Cell}, (∀ x, s.lab x = true → s'.lab x = true) → WSeen w h dem nd d s →
      WSeen w h dem nd d s' := fun hm hw => ⟨fun h => hm _ (hw.1 h), fun h b a b' c' => hm _ (hw.2 h b a b' c')⟩
  unfold weiInitCell
  by_cases h1 : s.lab c = true
  · rw [if_pos h1]
    refine ⟨I, J, ?_, fun _ h => h⟩
    by_cases h2 : dem c = nd
    · exact J c h1 h2
    · exact ⟨fun _ => h1, fun h => absurd h h2⟩
  rw [if_neg h1]
  have h1' : s.lab c = false := by simpa using h1
  by_cases h2 : s.elev c = nd
  · rw [if_pos h2]
    rw [I.elev] at h2
    set s1 : TS E := { s with lab := Function.update s.lab c true } with hs1
    have hun := unflagged_update hc h1'
    have m1 : ∀ x, s.lab x = true → s1.lab x = true := by
      intro x hx
      show Function.update s.lab c true x = true
      by_cases h : x = c
      · rw [h]; simp
      · rwa [Function.update_of_ne h]
    have I1 : WInit w h dem nd s1 := by
      refine ⟨I.elev, I.qs, ?_, ?_, ?_⟩
      · intro x hx
        by_cases h : x = c
        · subst h; exact ⟨hc, fun hn => absurd h2 hn⟩
        · have hx : Function.update s.lab c true x = true := hx
          rw [Function.update_of_ne h] at hx
          exact I.lab x hx
      · intro e he
        obtain ⟨a, b, d, f, g⟩ := I.pq e he
        exact ⟨a, b, d, f, m1 _ g⟩
      · have := I.size
        show s.pq.length + unflagged w h (Function.update s.lab c true) ≤ w * h
        omega
    obtain ⟨q1, q2, q3⟩ := foldl_inv (f := weiInitNbr pq w h nd c)
      (fun t => WInit w h dem nd t ∧ ∀ x, s1.lab x = true → t.lab x = true)
      (fun n t => InGrid w h (nbr .D8 c n) → dem (nbr .D8 c n) ≠ nd → t.lab (nbr .D8 c n) = true) (dirs .D8) s1
      (fun t n hn hP => ⟨⟨(weiInitNbr_ok hn hc h2 hP.1).1, fun x hx => (weiInitNbr_ok hn hc h2 hP.1).2.1 x (hP.2 x hx)⟩,
        (weiInitNbr_ok hn hc h2 hP.1).2.2⟩)
      (fun t n m hn hP hR ha hb => (weiInitNbr_ok hn hc h2 hP.1).2.1 _ (hR ha hb)) ⟨I1, fun _ h => h⟩
    set s2 := (dirs .D8).foldl (weiInitNbr pq w h nd c) s1 with hs2
    have seen : WSeen w h dem nd c s2 := by
      refine ⟨fun _ => q1.2 c (by simp [hs1]), ?_⟩
      intro _ b hab hb hbn
      obtain ⟨n, hn, rfl⟩ := adj_iff_nbr.1 hab
      exact q2 n hn hb hbn
    refine ⟨q1.1, ?_, seen, fun x hx => q1.2 x (m1 x hx)⟩
    intro d hd hdn
    by_cases hdc' : d = c
    · rw [hdc']; exact seen
    · -- NoData cells are only labelled when visited
      have hsd : s.lab d = true := by
        have := foldl_inv' (f := weiInitNbr pq w h nd c)
          (fun t => t.elev = dem ∧ (t.lab d = true → s1.lab d = true)) (dirs .D8) s1 ?_ ⟨I.elev, id⟩
        · have h3 := this.2 hd
          have h3 : Function.update s.lab c true d = true := h3
          rwa [Function.update_of_ne hdc'] at h3
        · intro t n _ ht
          unfold weiInitNbr
          simp only
          split
          · exact ht
          split
          · exact ht
          split
          · exact ht
          · next hne =>
            refine ⟨ht.1, ?_⟩
            intro hlab
            have hlab : Function.update t.lab (nbr .D8 c n) true d = true := hlab
            by_cases hdq : d = nbr .D8 c n
            · rw [ht.1, ← hdq] at hne; exact absurd hdn hne
            · rw [Function.update_of_ne hdq] at hlab; exact ht.2 hlab
      exact mono (fun x hx => q1.2 x (m1 x hx)) (J d hsd hdn)
  rw [if_neg h2]
  rw [I.elev] at h2
  by_cases h3 : isEdgeCell w h c = true
  · rw [if_pos h3]
    have he : OnEdge w h c := ⟨hc, (isEdgeCell_iff hc).1 h3 |>.2⟩
    have m1 : ∀ x, s.lab x = true → Function.update s.lab c true x = true := by
      intro x hx
      by_cases h : x = c
      · rw [h]; simp
      · rwa [Function.update_of_ne h]
    refine ⟨I.push hc h1' h2 (Or.inl he), ?_, ⟨fun _ => by simp, fun h => absurd h h2⟩, m1⟩
    intro d hd hdn
    have hdc : d ≠ c := by rintro rfl; exact h2 hdn
    have hd : Function.update s.lab c true d = true := hd
    rw [Function.update_of_ne hdc] at hd
    exact mono m1 (J d hd hdn)
  · rw [if_neg h3]
    refine ⟨I, J, ⟨fun h => ?_, fun h => absurd h h2⟩, fun _ h => h⟩
    rcases h with h | h
    · exact absurd h h2
    · exact absurd ((isEdgeCell_iff hc).2 h) h3

theorem weiInit_ok (pq : PQ (E × Cell) zLt) (dem : Cell → E) (nd : E) :
    WInit w h dem nd (weiInit pq w h dem nd) ∧
    ∀ c, InGrid w h c → WSeen w h dem nd c (weiInit pq w h dem nd) := by
  unfold weiInit
  set s0 : TS E := { elev := dem, lab := fun _ => false, pq := [], dep := [], trace := [], pot := [], safe := true } with hs0
  have I0 : WInit w h dem nd s0 :=
    ⟨rfl, ⟨rfl, rfl, rfl, rfl⟩, fun c hl => (by cases hl), fun e he => absurd he (by simp [hs0]), by
      have := unflagged_le w h s0.lab
      simpa [hs0] using this⟩
  obtain ⟨q1, q2, _⟩ := foldl_inv (f := weiInitCell pq w h nd)
    (fun t => WInit w h dem nd t ∧ ∀ c, t.lab c = true → dem c = nd → WSeen w h dem nd c t)
    (fun c t => WSeen w h dem nd c t) (allCells w h) s0
    (fun t c hc hP => by
      obtain ⟨a, b, d, _⟩ := weiInitCell_ok (pq := pq) (mem_allCells.1 hc) hP.1 hP.2
      exact ⟨⟨a, b⟩, d⟩)
    (fun t c d hc hP hR => by
      obtain ⟨_, _, _, m⟩ := weiInitCell_ok (pq := pq) (mem_allCells.1 hc) hP.1 hP.2
      exact ⟨fun h => m _ (hR.1 h), fun h b a b' c' => m _ (hR.2 h b a b' c')⟩)
    ⟨I0, fun c hl => (by cases hl)⟩
  exact ⟨q1.1, fun c hc => q2 c (mem_allCells.2 hc)⟩

theorem wei_final (pq : PQ (E × Cell) zLt) (dem : Cell → E) (nd : E) :
    weiStep pq w h (priorityFloodWei pq w h dem nd) = none ∧
    (priorityFloodWei pq w h dem nd).safe = true ∧
    (∀ c z, SDrains (wreg w h dem nd) (wout w h dem nd) dem z c →
      IsLvl (wreg w h dem nd) (wout w h dem nd) dem c ((priorityFloodWei pq w h dem nd).elev c)) ∧
    (∀ c, InGrid w h c → dem c = nd → (priorityFloodWei pq w h dem nd).elev c = nd) := by
  obtain ⟨W, hseen⟩ := weiInit_ok (w := w) (h := h) pq dem nd
  unfold priorityFloodWei
  set s0 := weiInit pq w h dem nd with hs0
  have outl : ∀ c, wreg w h dem nd c → wout w h dem nd c → s0.lab c = true := by
    rintro c ⟨hc, hn⟩ (ho | ⟨b, hab, hb, hbn⟩)
    · exact (hseen c hc).1 (Or.inr ho)
    · exact (hseen b hb).2 hbn c hab.symm hc hn
  have X0 : WX w h (wreg w h dem nd) (wout w h dem nd) s0 :=
    ⟨fun c hc => (hseen c hc.1).1 (Or.inr hc), outl, by rw [W.qs.1]; simp, by rw [W.qs.2.1]; simp,
      by rw [W.qs.2.2.1]; simp, W.qs.2.2.2⟩
  have Z0 : ZTop w h (wreg w h dem nd) (wout w h dem nd) dem s0 := by
    refine ⟨⟨⟨?_, ?_, ?_⟩, ?_, ?_, by rw [W.qs.1]; simp, by rw [W.qs.2.1]; simp, by rw [W.qs.2.2.1]; simp, ?_,
      fun c h => h.1, ?_⟩, W.qs.1, W.qs.2.1, W.qs.2.2.1⟩
    · intro v hv hl
      have hm := (W.lab v hl).2 hv.2
      rw [W.elev]
      exact lvl_out hv (W.pq _ hm).2.2.2.1
    · intro v _ _; rw [W.elev]
    · intro v u hv _ hl _ _
      exact Or.inl (Or.inl (List.mem_map.2 ⟨_, (W.lab v hl).2 hv.2, rfl⟩))
    · intro e he
      obtain ⟨a, b, c, d, f⟩ := W.pq e he
      exact ⟨⟨a, c⟩, by rw [b, W.elev], Or.inl f⟩
    · intro c hc ho hl; rw [outl c hc ho] at hl; cases hl
    · have := unflagged_le w h s0.lab
      rw [W.qs.1, W.qs.2.1]; simpa using this
    · intro c hc hl
      refine ⟨hc, fun hn => ?_⟩
      rw [(hseen c hc).1 (Or.inl hn)] at hl; cases hl
  have hf : s0.size w h ≤ floodFuel w h := by
    have := W.size
    have h2 : s0.size w h = s0.pq.length + unflagged w h s0.lab := by
      unfold TS.size; rw [W.qs.1, W.qs.2.1, W.qs.2.2.1]; simp
    unfold floodFuel; omega
  obtain ⟨⟨Z, X, K⟩, hn⟩ := loop_spec (step := weiStep pq w h)
    (fun s => ZTop w h (wreg w h dem nd) (wout w h dem nd) dem s ∧ WX w h (wreg w h dem nd) (wout w h dem nd) s ∧ Keep s0 s)
    (fun s => s.size w h) (fun s s' hs hst => by
      obtain ⟨⟨a, b, c⟩, d⟩ := weiStep_ok hs.1 hs.2.1 hst
      exact ⟨⟨a, b, hs.2.2.trans c⟩, d⟩) (floodFuel w h) s0 ⟨Z0, X0, Keep.refl _⟩ hf
  have hq : (loop (weiStep pq w h) (floodFuel w h) s0).pq = [] := by
    unfold weiStep at hn
    split at hn
    · next h => exact pq.pop_none.1 h
    · cases hn
  refine ⟨hn, X.safe, fun c z hd => (Z.final hq hd).2, ?_⟩
  intro c hc hcn
  rw [(K c ((hseen c hc).1 (Or.inl hcn))).2, W.elev, hcn]

end RichDEM
