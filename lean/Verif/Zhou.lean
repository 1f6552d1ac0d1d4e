/-
Model of `PriorityFlood_Zhou2016` (include/richdem/depressions/Zhou2016.hpp).

Simplifications: `labels` is a Boolean per cell (the code stores 0 or 10); `nToI(c,dx,dy)`
(Array2D.hpp) is `nbr` followed by the `inGrid` test it performs; queue entries also carry the
elevation they were queued with, which this code does not read.  Elevations range over a linear
order (no NaN).  The heap orders by elevation and then by cell index; the model allows every order
of equal elevations.
-/
import Verif.Trace

namespace RichDEM

variable {E : Type*} [LinearOrder E]

/-- Zhou2016.hpp:80-97: body of the neighbour loop of `ProcessPit_onepass`. -/
def zhouPitNbr (w h : Nat) (z : E) (c : Cell) (s : TS E) (n : Nat) : TS E :=
  let q := nbr .D8 c n
  if inGrid w h q = false then s                                          -- :82-83
  else if s.lab q then s                                                  -- :85-86
  else if z < s.elev q then s.slope q                                     -- :88-91
  else s.pit z q                                                          -- :92-95

/-- Zhou2016.hpp:76-98: one iteration of the loop of `ProcessPit_onepass`. -/
def zhouPitStep (w h : Nat) (z : E) (s : TS E) : Option (TS E) :=
  match s.dep with
  | [] => none
  | e :: r => some ((dirs .D8).foldl (zhouPitNbr w h z e.2) { s with dep := r })

/-- Zhou2016.hpp:49-60: the test `isBoundary`.  `sel n nn` is the direction in which the loop over
`nn` looks: the code writes `d8x[n], d8y[n]`, so `sel n nn = n`. -/
def zhouBoundary (sel : Nat → Nat → Nat) (w h : Nat) (s : TS E) (q : Cell) (n : Nat) : Bool :=
  (dirs .D8).all fun nn =>
    let r := nbr .D8 q (sel n nn)                                         -- :52
    !(inGrid w h r && (s.lab r && decide (s.elev r < s.elev q)))          -- :53-59

/-- Zhou2016.hpp:34-66: body of the neighbour loop of `ProcessTraceQue_onepass`; the Boolean is
`bInPQ`. -/
def zhouTraceNbr (pq : PQ (E × Cell) zLt) (sel : Nat → Nat → Nat) (w h : Nat) (c : Cell) (sb : TS E × Bool)
    (n : Nat) : TS E × Bool :=
  let q := nbr .D8 c n
  if inGrid w h q = false then sb                                         -- :36-37
  else if sb.1.lab q then sb                                              -- :39-40
  else if sb.1.elev c < sb.1.elev q then (sb.1.slope q, sb.2)             -- :43-47
  else if sb.2 then sb                                                    -- :50
  else if zhouBoundary sel w h sb.1 q n then
    ({ sb.1 with pq := pq.push (sb.1.elev c, c) sb.1.pq }, true)          -- :62-65
  else sb

/-- Zhou2016.hpp:29-68: one iteration of the loop of `ProcessTraceQue_onepass`. -/
def zhouTraceStep (pq : PQ (E × Cell) zLt) (sel : Nat → Nat → Nat) (w h : Nat) (s : TS E) : Option (TS E) :=
  match s.trace with
  | [] => none
  | e :: r => some ((dirs .D8).foldl (zhouTraceNbr pq sel w h e.2) ({ s with trace := r }, false)).1

/-- Zhou2016.hpp:163-180: body of the neighbour loop of the main loop. -/
def zhouNbr (pq : PQ (E × Cell) zLt) (sel : Nat → Nat → Nat) (w h : Nat) (c : E × Cell) (s : TS E) (n : Nat) :
    TS E :=
  let q := nbr .D8 c.2 n
  if inGrid w h q = false then s                                          -- :165-166
  else if s.lab q then s                                                  -- :168-169
  else
    let s1 := if s.elev q ≤ c.1 then loop (zhouPitStep w h c.1) (w * h) (s.pit c.1 q)  -- :173-176
              else s.slope q                                              -- :177-179
    loop (zhouTraceStep pq sel w h) (w * h) s1                            -- :180

/-- Zhou2016.hpp:157-182: one iteration of the main loop. -/
def zhouStep (pq : PQ (E × Cell) zLt) (sel : Nat → Nat → Nat) (w h : Nat) (s : TS E) : Option (TS E) :=
  match pq.pop s.pq with
  | none => none
  | some (c, r) =>
    some ((dirs .D8).foldl (zhouNbr pq sel w h c) { s with pq := r, lab := Function.update s.lab c.2 true })

/-- Zhou2016.hpp:144-155: the perimeter, in the order of the code. -/
def zhouSeeds (w h : Nat) : List Cell :=
  (List.range w).map (fun x : Nat => ((x : Int), (0 : Int))) ++
  (List.range w).map (fun x : Nat => ((x : Int), (h : Int) - 1)) ++
  (List.range' 1 (h - 2)).map (fun y : Nat => ((0 : Int), (y : Int))) ++
  (List.range' 1 (h - 2)).map (fun y : Nat => ((w : Int) - 1, (y : Int)))

/-- Zhou2016.hpp:122-186 `PriorityFlood_Zhou2016`. -/
def zhouRun (sel : Nat → Nat → Nat) (pq : PQ (E × Cell) zLt) (w h : Nat) (dem : Cell → E) : TS E :=
  loop (zhouStep pq sel w h) (floodFuel w h)
    { elev := dem, lab := fun _ => false
      pq := pq.pushAll ((zhouSeeds w h).map (fun c => (dem c, c))) []
      dep := [], trace := [], pot := [], safe := (zhouSeeds w h).all (inGrid w h) }

/-- `PriorityFlood_Zhou2016` as written. -/
def priorityFloodZhou (pq : PQ (E × Cell) zLt) (w h : Nat) (dem : Cell → E) : TS E :=
  zhouRun (fun n _ => n) pq w h dem

/-! ### Invariants -/

variable {reg out : Cell → Prop} {dem : Cell → E} {w h : Nat} {ex : List Cell} {z : E} {S M : Nat}

/-- The invariant within the processing of one heap cell. -/
structure Ph (w h : Nat) (reg out : Cell → Prop) (dem : Cell → E) (z : E) (ex : List Cell) (S M : Nat) (s : TS E) :
    Prop where
  I : TSI w h reg out dem s ex
  Z : TSZ reg out dem z s
  sz : s.size w h ≤ S
  mu : s.mu w h ≤ M

/-- Labelled cells keep their label and elevation. -/
def Keep (s s' : TS E) : Prop := ∀ x, s.lab x = true → s'.lab x = true ∧ s'.elev x = s.elev x

omit [LinearOrder E] in
theorem Keep.refl (s : TS E) : Keep s s := fun _ h => ⟨h, rfl⟩
omit [LinearOrder E] in
theorem Keep.trans {a b c : TS E} (h1 : Keep a b) (h2 : Keep b c) : Keep a c := fun x hx =>
  ⟨(h2 x (h1 x hx).1).1, ((h2 x (h1 x hx).1).2).trans (h1 x hx).2⟩
omit [LinearOrder E] in
theorem keep_slope {s : TS E} {q : Cell} (_ : s.lab q = false) : Keep s (s.slope q) := by
  intro x hx
  refine ⟨?_, rfl⟩
  show Function.update s.lab q true x = true
  by_cases h : x = q
  · subst h; simp
  · rwa [Function.update_of_ne h]
omit [LinearOrder E] in
theorem keep_pit {s : TS E} {q : Cell} (hq : s.lab q = false) : Keep s (s.pit z q) := by
  intro x hx
  have h : x ≠ q := by rintro rfl; rw [hq] at hx; cases hx
  refine ⟨?_, ?_⟩
  · show Function.update s.lab q true x = true
    rwa [Function.update_of_ne h]
  · show Function.update s.elev q z x = s.elev x
    rw [Function.update_of_ne h]

theorem zhouPitNbr_ok {c : Cell} {s : TS E} {n : Nat} (hn : n ∈ dirs .D8)
    (P : Ph w h reg out dem z (c :: ex) S M s) (hc : reg c) (hl : s.lab c = true) (he : s.elev c = z) :
    Ph w h reg out dem z (c :: ex) S M (zhouPitNbr w h z c s n) ∧ Keep s (zhouPitNbr w h z c s n) ∧
    (InGrid w h (nbr .D8 c n) → (zhouPitNbr w h z c s n).lab (nbr .D8 c n) = true) ∧
    (zhouPitNbr w h z c s n).pot = s.pot := by
  unfold zhouPitNbr
  simp only
  by_cases h1 : inGrid w h (nbr .D8 c n) = false
  · rw [if_pos h1]
    exact ⟨P, Keep.refl s, fun h => absurd h (inGrid_false.1 h1), rfl⟩
  rw [if_neg h1]
  have hg : InGrid w h (nbr .D8 c n) := by rw [← inGrid_iff]; simpa using h1
  by_cases h2 : s.lab (nbr .D8 c n) = true
  · rw [if_pos h2]; exact ⟨P, Keep.refl s, fun _ => h2, rfl⟩
  rw [if_neg h2]
  have h2' : s.lab (nbr .D8 c n) = false := by simpa using h2
  have hr := P.I.unreg _ hg h2'
  by_cases h3 : z < s.elev (nbr .D8 c n)
  · rw [if_pos h3]
    obtain ⟨a, b, d, m⟩ := P.I.slope P.Z hr h2' hc hl (nbr_adj hn) (by rw [he]; exact h3.le)
    exact ⟨⟨a, b, by rw [d]; exact P.sz, by rw [m]; exact P.mu⟩, keep_slope h2', fun _ => by simp [TS.slope], rfl⟩
  · rw [if_neg h3]
    obtain ⟨a, b, d, m⟩ := P.I.pit P.Z hr h2' hc hl (nbr_adj hn) he (not_lt.1 h3)
    exact ⟨⟨a, b, by rw [d]; exact P.sz, by rw [m]; exact P.mu⟩, keep_pit h2', fun _ => by simp [TS.pit], rfl⟩

/-- Reading a whole neighbour loop off a lemma about its body. -/
theorem foldl_keep {f : TS E → Nat → TS E} {c : Cell} (P : TS E → Prop) (l : List Nat) (s : TS E)
    (hc : s.lab c = true) (hs : P s)
    (hf : ∀ s n, n ∈ l → P s → s.lab c = true → s.elev c = z → P (f s n) ∧ Keep s (f s n) ∧
      (InGrid w h (nbr .D8 c n) → (f s n).lab (nbr .D8 c n) = true) ∧ (f s n).pot = s.pot)
    (hz : s.elev c = z) :
    P (l.foldl f s) ∧ Keep s (l.foldl f s) ∧
    (∀ n ∈ l, InGrid w h (nbr .D8 c n) → (l.foldl f s).lab (nbr .D8 c n) = true) ∧ (l.foldl f s).pot = s.pot := by
  induction l generalizing s with
  | nil => exact ⟨hs, Keep.refl s, by simp, rfl⟩
  | cons a l ih =>
    obtain ⟨p1, p2, p3, p4⟩ := hf s a List.mem_cons_self hs hc hz
    obtain ⟨q1, q2, q3, q4⟩ := ih (f s a) (p2 c hc).1 p1 (fun s n hn => hf s n (List.mem_cons_of_mem _ hn))
      ((p2 c hc).2.trans hz)
    refine ⟨q1, p2.trans q2, ?_, q4.trans p4⟩
    intro n hn hg
    rcases List.mem_cons.1 hn with rfl | hn
    · exact (q2 _ (p3 hg)).1
    · exact q3 n hn hg

/-- Dropping a carrier whose neighbours are all labelled. -/
theorem Ph.dropAll {c : Cell} {s : TS E} (P : Ph w h reg out dem z (c :: ex) S M s)
    (hall : ∀ n ∈ dirs .D8, InGrid w h (nbr .D8 c n) → s.lab (nbr .D8 c n) = true) :
    Ph w h reg out dem z ex S M s := by
  refine ⟨P.I.drop ?_, P.Z, P.sz, P.mu⟩
  intro u hu hl ha
  obtain ⟨n, hn, rfl⟩ := adj_iff_nbr.1 ha
  have := hall n hn (P.I.regs _ hu)
  rw [hl] at this; cases this

theorem zhouPitLoop_ok {s : TS E} (P : Ph w h reg out dem z ex S M s) :
    Ph w h reg out dem z ex S M (loop (zhouPitStep w h z) (w * h) s) ∧
    Keep s (loop (zhouPitStep w h z) (w * h) s) ∧
    (loop (zhouPitStep w h z) (w * h) s).dep = [] ∧ (loop (zhouPitStep w h z) (w * h) s).pot = s.pot := by
  have key := loop_spec (step := zhouPitStep w h z)
    (fun t => Ph w h reg out dem z ex S M t ∧ Keep s t ∧ t.pot = s.pot)
    (fun t => t.mu w h) ?_ (w * h) s ⟨P, Keep.refl s, rfl⟩ P.I.bud
  · obtain ⟨⟨k1, k2, k3⟩, k4⟩ := key
    refine ⟨k1, k2, ?_, k3⟩
    unfold zhouPitStep at k4
    split at k4
    · assumption
    · cases k4
  · rintro t t' ⟨Pt, Kt, pt⟩ hst
    unfold zhouPitStep at hst
    cases hd : t.dep with
    | nil => rw [hd] at hst; cases hst
    | cons e r =>
      rw [hd] at hst
      simp only [Option.some.injEq] at hst
      obtain ⟨e1, e2, e3⟩ := Pt.I.depok e (by rw [hd]; exact List.mem_cons_self)
      have e4 := Pt.Z.depz e (by rw [hd]; exact List.mem_cons_self)
      obtain ⟨I', Z', s', m'⟩ := Pt.I.popDep Pt.Z hd
      have P' : Ph w h reg out dem z (e.2 :: ex) S (t.mu w h - 1) { t with dep := r } :=
        ⟨I', Z', by have := Pt.sz; omega, by omega⟩
      obtain ⟨q1, q2, q3, q4⟩ := foldl_keep (z := z) (w := w) (h := h) (f := zhouPitNbr w h z e.2) (c := e.2)
        (Ph w h reg out dem z (e.2 :: ex) S (t.mu w h - 1)) (dirs .D8) { t with dep := r } e3 P'
        (fun s n hn hP hl he => zhouPitNbr_ok hn hP e1 hl he) (by rw [← e4, e2])
      rw [hst] at q1 q2 q3 q4
      have Q := q1.dropAll q3
      refine ⟨⟨⟨Q.I, Q.Z, Q.sz, ?_⟩, Kt.trans (fun x hx => q2 x hx), q4.trans pt⟩, ?_⟩
      · have := Q.mu; have := Pt.mu; omega
      · have := Q.mu; omega

/-! ### Tracing -/

/-- The invariant of the neighbour loop of the trace. -/
structure TP (w h : Nat) (reg out : Cell → Prop) (dem : Cell → E) (z : E) (ex : List Cell) (S M : Nat)
    (c : Cell) (s0 : TS E) (sb : TS E × Bool) : Prop where
  P : Ph w h reg out dem z (c :: ex) S M sb.1
  szb : sb.1.size w h + (if sb.2 then 0 else 1) ≤ S
  keep : Keep s0 sb.1
  inPQ : sb.2 = true → c ∈ sb.1.pq.map Prod.snd
  pot : sb.1.pot = s0.pot
  dep : sb.1.dep = s0.dep

/-- The neighbour `u` of `c` needs no further attention. -/
def TDone (reg : Cell → Prop) (dem : Cell → E) (ex : List Cell) (c : Cell) (u : Cell) (sb : TS E × Bool) : Prop :=
  sb.2 = true ∨ sb.1.lab u = true ∨ Reach reg dem sb.1.lab sb.1.elev (sb.1.K ex) (sb.1.elev c) u

/-- What can be reached is kept when a slope cell is labelled. -/
theorem Reach.slope {s : TS E} {m : E} {u q : Cell} (hq : s.lab q = false) (hr : reg q) (hs : s.elev q = dem q)
    (hu : (s.slope q).lab u = false) (h : Reach reg dem s.lab s.elev (s.K ex) m u) :
    Reach reg dem (s.slope q).lab (s.slope q).elev ((s.slope q).K ex) m u := by
  have hux : u ≠ q := by rintro rfl; simp [TS.slope] at hu
  have := h.label (e := s.elev q) hq hr hux (fun h => by rw [hs]; exact h)
  rw [Function.update_eq_self] at this
  refine this.mono ?_ le_rfl
  rintro k (hk | hk)
  · rcases hk with hk | hk | hk | hk | hk
    · exact Or.inl hk
    · exact Or.inr (Or.inl hk)
    · exact Or.inr (Or.inr (Or.inl (by simp only [TS.slope, List.map_append]; exact List.mem_append_left _ hk)))
    · exact Or.inr (Or.inr (Or.inr (Or.inl hk)))
    · exact Or.inr (Or.inr (Or.inr (Or.inr hk)))
  · exact Or.inr (Or.inr (Or.inl (by simp [TS.slope, hk])))

theorem K_ne {s : TS E} {c k : Cell} (h : s.K (c :: ex) k) (hk : k ≠ c) : s.K ex k := by
  rcases h with h | h | h | h | h
  · exact Or.inl h
  · exact Or.inr (Or.inl h)
  · exact Or.inr (Or.inr (Or.inl h))
  · exact Or.inr (Or.inr (Or.inr (Or.inl h)))
  · exact Or.inr (Or.inr (Or.inr (Or.inr ((List.mem_cons.1 h).resolve_left hk))))

theorem zhouTraceNbr_ok {pq : PQ (E × Cell) zLt} {sel : Nat → Nat → Nat}
    (hsel : ∀ n nn, n ∈ dirs .D8 → nn ∈ dirs .D8 → sel n nn ∈ dirs .D8) (hreg : ∀ c, InGrid w h c → reg c)
    {c : Cell} {s0 : TS E} {sb : TS E × Bool} {n : Nat}
    (hn : n ∈ dirs .D8) (hc : reg c) (hl : s0.lab c = true)
    (T : TP w h reg out dem z ex S M c s0 sb) :
    TP w h reg out dem z ex S M c s0 (zhouTraceNbr pq sel w h c sb n) ∧
    (InGrid w h (nbr .D8 c n) → TDone reg dem ex c (nbr .D8 c n) (zhouTraceNbr pq sel w h c sb n)) ∧
    ∀ u, reg u → TDone reg dem ex c u sb → TDone reg dem ex c u (zhouTraceNbr pq sel w h c sb n) := by
  have hlc := (T.keep c hl).1
  unfold zhouTraceNbr
  simp only
  set q := nbr .D8 c n with hqd
  by_cases h1 : inGrid w h q = false
  · rw [if_pos h1]
    exact ⟨T, fun h => absurd h (inGrid_false.1 h1), fun _ _ h => h⟩
  rw [if_neg h1]
  have hg : InGrid w h q := by rw [← inGrid_iff]; simpa using h1
  by_cases h2 : sb.1.lab q = true
  · rw [if_pos h2]; exact ⟨T, fun _ => Or.inr (Or.inl h2), fun _ _ h => h⟩
  rw [if_neg h2]
  have h2' : sb.1.lab q = false := by simpa using h2
  have hr := T.P.I.unreg _ hg h2'
  by_cases h3 : sb.1.elev c < sb.1.elev q
  · rw [if_pos h3]
    obtain ⟨a, b, d, m⟩ := T.P.I.slope T.P.Z hr h2' hc hlc (nbr_adj hn) h3.le
    have kp := keep_slope h2'
    refine ⟨⟨⟨a, b, by rw [d]; exact T.P.sz, by rw [m]; exact T.P.mu⟩, by rw [d]; exact T.szb, T.keep.trans kp,
      T.inPQ, T.pot, T.dep⟩, fun _ => Or.inr (Or.inl (by simp [TS.slope])), ?_⟩
    intro u hu hd
    rcases hd with hd | hd | hd
    · exact Or.inl hd
    · exact Or.inr (Or.inl (kp u hd).1)
    · by_cases hlu : (sb.1.slope q).lab u = true
      · exact Or.inr (Or.inl hlu)
      · exact Or.inr (Or.inr (hd.slope h2' hr (T.P.I.inv.same q hr h2') (by simpa using hlu)))
  rw [if_neg h3]
  by_cases h4 : sb.2 = true
  · rw [if_pos h4]; exact ⟨T, fun _ => Or.inl h4, fun _ _ h => h⟩
  rw [if_neg h4]
  by_cases h5 : zhouBoundary sel w h sb.1 q n = true
  · rw [if_pos h5]
    obtain ⟨a, b, d, f⟩ := T.P.I.pushPQ (pq := pq) (e := (sb.1.elev c, c)) hc rfl hlc
    have hb : sb.2 = false := by simpa using h4
    have hz := T.szb
    rw [hb] at hz
    simp only [Bool.false_eq_true, if_false] at hz
    refine ⟨⟨⟨a, ⟨T.P.Z.low, T.P.Z.front, T.P.Z.depz⟩, by rw [b]; exact hz, T.P.mu⟩, by rw [b]; simpa using hz,
      fun x hx => T.keep x hx, ?_, T.pot, T.dep⟩, fun _ => Or.inl rfl, fun _ _ _ => Or.inl rfl⟩
    intro _
    exact List.mem_map_of_mem (f := Prod.snd) (pq.mem_push.2 (Or.inl rfl))
  · rw [if_neg h5]
    refine ⟨T, fun _ => Or.inr (Or.inr ?_), fun _ _ h => h⟩
    unfold zhouBoundary at h5
    rw [List.all_eq_true] at h5
    push Not at h5
    obtain ⟨nn, hnn, hx⟩ := h5
    simp only [ne_eq, Bool.not_eq_true', Bool.not_eq_false, Bool.and_eq_true, decide_eq_true_eq] at hx
    obtain ⟨x1, x2, x3⟩ := hx
    have hgr := inGrid_iff.1 x1
    have hle : sb.1.elev q ≤ sb.1.elev c := not_lt.1 h3
    have hsame := T.P.I.inv.same q hr h2'
    have := T.P.I.inv.spill (c := c) (hreg _ hgr) hr x2 h2' (nbr_adj (hsel n nn hn hnn)).symm (x3.trans_le hle)
      (by rw [← hsame]; exact hle)
    exact this.mono (fun k hk => K_ne hk.1 hk.2) le_rfl

theorem zhouTraceLoop_ok {pq : PQ (E × Cell) zLt} {sel : Nat → Nat → Nat}
    (hsel : ∀ n nn, n ∈ dirs .D8 → nn ∈ dirs .D8 → sel n nn ∈ dirs .D8) (hreg : ∀ c, InGrid w h c → reg c)
    {s : TS E} (P : Ph w h reg out dem z ex S M s) :
    Ph w h reg out dem z ex S M (loop (zhouTraceStep pq sel w h) (w * h) s) ∧
    Keep s (loop (zhouTraceStep pq sel w h) (w * h) s) ∧
    (loop (zhouTraceStep pq sel w h) (w * h) s).trace = [] ∧
    (loop (zhouTraceStep pq sel w h) (w * h) s).pot = s.pot ∧
    (loop (zhouTraceStep pq sel w h) (w * h) s).dep = s.dep := by
  have key := loop_spec (step := zhouTraceStep pq sel w h)
    (fun t => Ph w h reg out dem z ex S M t ∧ Keep s t ∧ t.pot = s.pot ∧ t.dep = s.dep)
    (fun t => t.mu w h) ?_ (w * h) s ⟨P, Keep.refl s, rfl, rfl⟩ P.I.bud
  · obtain ⟨⟨k1, k2, k3, k5⟩, k4⟩ := key
    refine ⟨k1, k2, ?_, k3, k5⟩
    unfold zhouTraceStep at k4
    split at k4
    · assumption
    · cases k4
  · rintro t t' ⟨Pt, Kt, pt, dt⟩ hst
    unfold zhouTraceStep at hst
    cases hd : t.trace with
    | nil => rw [hd] at hst; cases hst
    | cons e r =>
      rw [hd] at hst
      simp only [Option.some.injEq] at hst
      obtain ⟨e1, e2, e3⟩ := Pt.I.traceok e (by rw [hd]; exact List.mem_cons_self)
      obtain ⟨I', s', m'⟩ := Pt.I.popTrace hd
      have P' : Ph w h reg out dem z (e.2 :: ex) S (t.mu w h - 1) { t with trace := r } :=
        ⟨I', ⟨Pt.Z.low, Pt.Z.front, Pt.Z.depz⟩, by have := Pt.sz; omega, by omega⟩
      have T0 : TP w h reg out dem z ex S (t.mu w h - 1) e.2 { t with trace := r } ({ t with trace := r }, false) :=
        ⟨P', by have := Pt.sz; simp only [Bool.false_eq_true, if_false]; omega, Keep.refl _,
          fun h => absurd h (by simp), rfl, rfl⟩
      obtain ⟨q1, q2, _⟩ := foldl_inv (f := zhouTraceNbr pq sel w h e.2)
        (TP w h reg out dem z ex S (t.mu w h - 1) e.2 { t with trace := r })
        (fun n sb => InGrid w h (nbr .D8 e.2 n) → TDone reg dem ex e.2 (nbr .D8 e.2 n) sb) (dirs .D8)
        ({ t with trace := r }, false)
        (fun sb n hn hP => ⟨(zhouTraceNbr_ok (s0 := { t with trace := r }) hsel hreg hn e1 e3 hP).1,
          (zhouTraceNbr_ok (s0 := { t with trace := r }) hsel hreg hn e1 e3 hP).2.1⟩)
        (fun sb n m hn hP hR hg =>
          (zhouTraceNbr_ok (s0 := { t with trace := r }) hsel hreg hn e1 e3 hP).2.2 _ (hreg _ hg) (hR hg)) T0
      set res := (dirs .D8).foldl (zhouTraceNbr pq sel w h e.2) ({ t with trace := r }, false) with hres
      rw [← hst]
      have D : TSI w h reg out dem res.1 ex := by
        refine q1.P.I.drop ?_
        intro u hu hlu ha
        obtain ⟨n, hn, rfl⟩ := adj_iff_nbr.1 ha
        rcases q2 n hn (q1.P.I.regs _ hu) with h | h | h
        · exact Or.inl (Or.inl (q1.inPQ h))
        · rw [hlu] at h; cases h
        · exact Or.inr h
      refine ⟨⟨⟨D, q1.P.Z, q1.P.sz, ?_⟩, Kt.trans (fun x hx => q1.keep x hx), q1.pot.trans pt, q1.dep.trans dt⟩, ?_⟩
      · have := q1.P.mu; have := Pt.mu; omega
      · have := q1.P.mu; omega

/-! ### The main loop -/

/-- The invariant between heap cells. -/
structure ZTop (w h : Nat) (reg out : Cell → Prop) (dem : Cell → E) (s : TS E) : Prop where
  I : TSI w h reg out dem s []
  dep : s.dep = []
  trace : s.trace = []
  pot : s.pot = []

theorem zhouNbr_ok {pq : PQ (E × Cell) zLt} {sel : Nat → Nat → Nat}
    (hsel : ∀ n nn, n ∈ dirs .D8 → nn ∈ dirs .D8 → sel n nn ∈ dirs .D8) (hreg : ∀ c, InGrid w h c → reg c)
    {c : E × Cell} {s : TS E} {n : Nat} (hn : n ∈ dirs .D8)
    (P : Ph w h reg out dem c.1 [c.2] S M s) (hd : s.dep = [] ∧ s.trace = []) (hc : reg c.2)
    (hl : s.lab c.2 = true) (he : s.elev c.2 = c.1) :
    (Ph w h reg out dem c.1 [c.2] S M (zhouNbr pq sel w h c s n) ∧
      ((zhouNbr pq sel w h c s n).dep = [] ∧ (zhouNbr pq sel w h c s n).trace = [])) ∧
    Keep s (zhouNbr pq sel w h c s n) ∧
    (InGrid w h (nbr .D8 c.2 n) → (zhouNbr pq sel w h c s n).lab (nbr .D8 c.2 n) = true) ∧
    (zhouNbr pq sel w h c s n).pot = s.pot := by
  unfold zhouNbr
  simp only
  set q := nbr .D8 c.2 n with hqd
  by_cases h1 : inGrid w h q = false
  · rw [if_pos h1]
    exact ⟨⟨P, hd⟩, Keep.refl s, fun h => absurd h (inGrid_false.1 h1), rfl⟩
  rw [if_neg h1]
  have hg : InGrid w h q := by rw [← inGrid_iff]; simpa using h1
  by_cases h2 : s.lab q = true
  · rw [if_pos h2]; exact ⟨⟨P, hd⟩, Keep.refl s, fun _ => h2, rfl⟩
  rw [if_neg h2]
  have h2' : s.lab q = false := by simpa using h2
  have hr := P.I.unreg _ hg h2'
  set s1 := if s.elev q ≤ c.1 then loop (zhouPitStep w h c.1) (w * h) (s.pit c.1 q) else s.slope q with hs1
  have K1 : Ph w h reg out dem c.1 [c.2] S M s1 ∧ Keep s s1 ∧ s1.dep = [] ∧ s1.pot = s.pot ∧ s1.lab q = true := by
    rw [hs1]
    by_cases h3 : s.elev q ≤ c.1
    · rw [if_pos h3]
      obtain ⟨a, b, d, m⟩ := P.I.pit P.Z hr h2' hc hl (nbr_adj hn) he h3
      obtain ⟨p1, p2, p3, p4⟩ := zhouPitLoop_ok (s := s.pit c.1 q)
        (⟨a, b, by rw [d]; exact P.sz, by rw [m]; exact P.mu⟩ : Ph w h reg out dem c.1 [c.2] S M (s.pit c.1 q))
      exact ⟨p1, (keep_pit h2').trans p2, p3, p4, (p2 q (by simp [TS.pit])).1⟩
    · rw [if_neg h3]
      obtain ⟨a, b, d, m⟩ := P.I.slope P.Z hr h2' hc hl (nbr_adj hn) (by rw [he]; exact (not_le.1 h3).le)
      exact ⟨⟨a, b, by rw [d]; exact P.sz, by rw [m]; exact P.mu⟩, keep_slope h2', hd.1, rfl, by simp [TS.slope]⟩
  obtain ⟨k1, k2, k3, k4, k5⟩ := K1
  obtain ⟨p1, p2, p3, p4, p5⟩ := zhouTraceLoop_ok (pq := pq) hsel hreg k1
  exact ⟨⟨p1, p5.trans k3, p3⟩, k2.trans p2, fun _ => (p2 q k5).1, p4.trans k4⟩

theorem zhouStep_ok {pq : PQ (E × Cell) zLt} {sel : Nat → Nat → Nat}
    (hsel : ∀ n nn, n ∈ dirs .D8 → nn ∈ dirs .D8 → sel n nn ∈ dirs .D8) (hreg : ∀ c, InGrid w h c → reg c)
    {s s' : TS E} (Z : ZTop w h reg out dem s) (hst : zhouStep pq sel w h s = some s') :
    ZTop w h reg out dem s' ∧ s'.size w h < s.size w h := by
  unfold zhouStep at hst
  cases hp : pq.pop s.pq with
  | none => rw [hp] at hst; cases hst
  | some r =>
    obtain ⟨c, r⟩ := r
    rw [hp] at hst
    simp only [Option.some.injEq] at hst
    obtain ⟨I', Z', hsz, hc, he⟩ := Z.I.popPQ hp Z.dep Z.trace Z.pot
    set s1 : TS E := { s with pq := r, lab := Function.update s.lab c.2 true } with hs1
    have P1 : Ph w h reg out dem c.1 [c.2] (s1.size w h) (s1.mu w h) s1 := ⟨I', Z', le_rfl, le_rfl⟩
    obtain ⟨q1, q2, q3, q4⟩ := foldl_keep (z := c.1) (w := w) (h := h) (f := zhouNbr pq sel w h c) (c := c.2)
      (fun t => Ph w h reg out dem c.1 [c.2] (s1.size w h) (s1.mu w h) t ∧ (t.dep = [] ∧ t.trace = []))
      (dirs .D8) s1 (by simp [hs1]) ⟨P1, Z.dep, Z.trace⟩
      (fun t n hn hP hl he => zhouNbr_ok hsel hreg hn hP.1 hP.2 hc hl he) he.symm
    rw [hst] at q1 q2 q3 q4
    have Q := q1.1.dropAll q3
    exact ⟨⟨Q.I, q1.2.1, q1.2.2, q4.trans Z.pot⟩, Q.sz.trans_lt hsz⟩

/-- The loop has ended: all cells have their level. -/
theorem ZTop.final {s : TS E} (Z : ZTop w h reg out dem s) (hq : s.pq = [])
    {c : Cell} {z : E} (hd : SDrains reg out dem z c) :
    s.lab c = true ∧ IsLvl reg out dem c (s.elev c) := by
  have hK : ∀ k, ¬ s.K [] k := by
    rintro k (hk | hk | hk | hk | hk)
    · rw [hq] at hk; simp at hk
    · rw [Z.dep] at hk; simp at hk
    · rw [Z.trace] at hk; simp at hk
    · rw [Z.pot] at hk; simp at hk
    · simp at hk
  have : s.lab c = true := by
    induction hd with
    | @out c a b _ =>
      by_contra hl
      have := Z.I.outq c a b (by simpa using hl)
      rw [hq] at this; simp at this
    | @step c d a _ ha hd ih =>
      by_contra hl
      rcases Z.I.inv.cov d c hd.mem a ih (by simpa using hl) ha.symm with h | ⟨k, h, _⟩
      · exact hK _ h
      · exact hK _ h
  exact ⟨this, Z.I.inv.lvl c hd.mem this⟩

theorem sdrains_iff {t : Cell → E} {c : Cell} :
    SDrains (InGrid w h) (OnEdge w h) t z c ↔ Drains w h .D8 t z c := by
  constructor
  · intro hd
    induction hd with
    | out a b c => exact .edge b c
    | step a b c _ ih => exact .step a b c ih
  · intro hd
    induction hd with
    | edge a b => exact .out a.1 a b
    | step a b c _ ih => exact .step a b c ih

theorem mem_zhouSeeds (hw : 0 < w) (hh : 0 < h) {c : Cell} : c ∈ zhouSeeds w h ↔ OnEdge w h c := by
  obtain ⟨x, y⟩ := c
  simp only [zhouSeeds, List.mem_append, List.mem_map, List.mem_range, List.mem_range'_1, Prod.mk.injEq,
    OnEdge, InGrid]
  constructor
  · rintro (((⟨a, h1, h2, h3⟩ | ⟨a, h1, h2, h3⟩) | ⟨a, h1, h2, h3⟩) | ⟨a, h1, h2, h3⟩) <;> omega
  · rintro ⟨⟨h1, h2, h3, h4⟩, h5⟩
    by_cases hy0 : y = 0
    · exact Or.inl (Or.inl (Or.inl ⟨x.toNat, by omega, by omega, by omega⟩))
    by_cases hy1 : y = (h : Int) - 1
    · exact Or.inl (Or.inl (Or.inr ⟨x.toNat, by omega, by omega, by omega⟩))
    by_cases hx0 : x = 0
    · exact Or.inl (Or.inr ⟨y.toNat, by omega, by omega, by omega⟩)
    · exact Or.inr ⟨y.toNat, by omega, by omega, by omega⟩

theorem zhou_filled (sel : Nat → Nat → Nat)
    (hsel : ∀ n nn, n ∈ dirs .D8 → nn ∈ dirs .D8 → sel n nn ∈ dirs .D8) (pq : PQ (E × Cell) zLt)
    (dem : Cell → E) (hw : 0 < w) (hh : 0 < h) :
    (zhouStep pq sel w h (zhouRun sel pq w h dem) = none) ∧
    IsFilled w h .D8 dem (zhouRun sel pq w h dem).elev := by
  unfold zhouRun
  set s0 : TS E := { elev := dem, lab := fun _ => false
                     pq := pq.pushAll ((zhouSeeds w h).map (fun c => (dem c, c))) []
                     dep := [], trace := [], pot := [], safe := (zhouSeeds w h).all (inGrid w h) } with hs0
  have hmem : ∀ e, e ∈ s0.pq ↔ ∃ c, OnEdge w h c ∧ (dem c, c) = e := by
    intro e
    rw [hs0]
    simp only [pq.mem_pushAll, List.mem_map, mem_zhouSeeds hw hh, List.not_mem_nil, or_false]
  have Z0 : ZTop w h (InGrid w h) (OnEdge w h) dem s0 := by
    refine ⟨⟨⟨?_, ?_, ?_⟩, ?_, ?_, ?_, ?_, ?_, ?_, fun _ h => h, fun c h _ => h⟩, rfl, rfl, rfl⟩
    · intro v _ h; cases h
    · intro v _ _; rfl
    · intro v u _ _ h; cases h
    · intro e he
      obtain ⟨c, hc, rfl⟩ := (hmem e).1 he
      exact ⟨hc.1, rfl, Or.inr hc⟩
    · intro c _ ho _; exact (hmem _).2 ⟨c, ho, rfl⟩
    · intro e he; exact absurd he (by simp [hs0])
    · intro e he; exact absurd he (by simp [hs0])
    · intro e he; exact absurd he (by simp [hs0])
    · have := unflagged_le w h s0.lab
      simpa [hs0] using this
  have hf : s0.size w h ≤ floodFuel w h := by
    have := unflagged_le w h s0.lab
    have h1 : s0.pq.length = 2 * w + 2 * (h - 2) := by
      rw [hs0]; simp only [pq.length_pushAll]; simp [zhouSeeds]; omega
    have h2 : s0.size w h = s0.pq.length + unflagged w h s0.lab := by simp [TS.size, hs0]
    unfold floodFuel; omega
  obtain ⟨Z, hn⟩ := loop_spec (step := zhouStep pq sel w h) (ZTop w h (InGrid w h) (OnEdge w h) dem)
    (fun s => s.size w h) (fun s s' => zhouStep_ok hsel (fun _ h => h)) (floodFuel w h) s0 Z0 hf
  refine ⟨hn, ?_⟩
  have hq : (loop (zhouStep pq sel w h) (floodFuel w h) s0).pq = [] := by
    unfold zhouStep at hn
    split at hn
    · next h => exact pq.pop_none.1 h
    · cases hn
  intro c hc
  obtain ⟨z, hz⟩ := exists_drains (t := .D8) dem hc
  obtain ⟨_, k1, k2⟩ := Z.final hq (sdrains_iff.2 hz)
  rw [isWaterLevel_iff]
  exact ⟨sdrains_iff.1 k1, fun z' hz' => k2 z' (sdrains_iff.2 hz')⟩

end RichDEM
