/-
Helper theory for the Priority-Flood variants that bypass the heap (Zhou2016, Wei2018): levels
relative to a set of outlets, the frontier of the labelled cells, and the operations on it.
-/
import Verif.Flood

namespace RichDEM

variable {E : Type*} [LinearOrder E]

/-- Some path from `c` through cells of the region to an outlet stays at or below `z`. -/
inductive SDrains (reg out : Cell → Prop) (dem : Cell → E) (z : E) : Cell → Prop
  | out {c} : reg c → out c → dem c ≤ z → SDrains reg out dem z c
  | step {c d} : reg c → dem c ≤ z → Adj .D8 c d → SDrains reg out dem z d → SDrains reg out dem z c

/-- `z` is the least level at which `c` drains. -/
def IsLvl (reg out : Cell → Prop) (dem : Cell → E) (c : Cell) (z : E) : Prop :=
  SDrains reg out dem z c ∧ ∀ z', SDrains reg out dem z' c → z ≤ z'

variable {reg out : Cell → Prop} {dem : Cell → E}

theorem SDrains.le {z : E} {c : Cell} (h : SDrains reg out dem z c) : dem c ≤ z := by
  cases h with
  | out _ _ h => exact h
  | step _ h _ _ => exact h

theorem SDrains.mem {z : E} {c : Cell} (h : SDrains reg out dem z c) : reg c := by
  cases h with
  | out h _ _ => exact h
  | step h _ _ _ => exact h

theorem SDrains.mono {z z' : E} (hz : z ≤ z') {c : Cell} (h : SDrains reg out dem z c) :
    SDrains reg out dem z' c := by
  induction h with
  | out h1 h2 h3 => exact .out h1 h2 (h3.trans hz)
  | step h1 h2 h3 _ ih => exact .step h1 (h2.trans hz) h3 ih

theorem lvl_out {c : Cell} (h1 : reg c) (h2 : out c) : IsLvl reg out dem c (dem c) :=
  ⟨.out h1 h2 le_rfl, fun _ h => h.le⟩

theorem lvl_slope {u v : Cell} {e : E} (hu : reg u) (ha : Adj .D8 u v) (hv : IsLvl reg out dem v e)
    (he : e ≤ dem u) : IsLvl reg out dem u (dem u) :=
  ⟨.step hu le_rfl ha (hv.1.mono he), fun _ h => h.le⟩

theorem lvl_pit {u v : Cell} {z : E} (hu : reg u) (hd : dem u ≤ z) (ha : Adj .D8 u v)
    (hv : IsLvl reg out dem v z) (hl : ∀ z', SDrains reg out dem z' u → z ≤ z') :
    IsLvl reg out dem u z :=
  ⟨.step hu hd ha hv.1, hl⟩

/-- A chain of unlabelled cells, none above `m`, from `u` to a neighbour of `k`. -/
inductive UPath (reg : Cell → Prop) (dem : Cell → E) (lab : Cell → Bool) (m : E) (k : Cell) : Cell → Prop
  | last {u} : reg u → lab u = false → dem u ≤ m → Adj .D8 u k → UPath reg dem lab m k u
  | step {u u'} : reg u → lab u = false → dem u ≤ m → Adj .D8 u u' → UPath reg dem lab m k u' →
      UPath reg dem lab m k u

theorem UPath.head {lab : Cell → Bool} {m : E} {k u : Cell} (h : UPath reg dem lab m k u) :
    reg u ∧ lab u = false ∧ dem u ≤ m := by
  cases h with
  | last a b c _ => exact ⟨a, b, c⟩
  | step a b c _ _ => exact ⟨a, b, c⟩

theorem UPath.mono {lab : Cell → Bool} {m m' : E} {k u : Cell} (hm : m ≤ m')
    (h : UPath reg dem lab m k u) : UPath reg dem lab m' k u := by
  induction h with
  | last a b c d => exact .last a b (c.trans hm) d
  | step a b c d _ ih => exact .step a b (c.trans hm) d ih

/-- From `u`, below `m`, some other carrier than `c`, not above `m`, can be reached. -/
def Reach (reg : Cell → Prop) (dem : Cell → E) (lab : Cell → Bool) (elev : Cell → E) (K : Cell → Prop)
    (m : E) (u : Cell) : Prop :=
  ∃ k, K k ∧ reg k ∧ lab k = true ∧ elev k ≤ m ∧ UPath reg dem lab m k u

/-- The labelled cells carry their final level, the others their original elevation, and every
labelled cell next to an unlabelled one is a carrier (waits in some queue) or is superseded by
carriers not above it. -/
structure TInv (reg out : Cell → Prop) (dem : Cell → E) (lab : Cell → Bool) (elev : Cell → E)
    (K : Cell → Prop) : Prop where
  lvl : ∀ v, reg v → lab v = true → IsLvl reg out dem v (elev v)
  same : ∀ v, reg v → lab v = false → elev v = dem v
  cov : ∀ v u, reg v → reg u → lab v = true → lab u = false → Adj .D8 v u →
    K v ∨ Reach reg dem lab elev K (elev v) u

theorem Reach.mono {lab : Cell → Bool} {elev : Cell → E} {K K' : Cell → Prop} {m m' : E} {u : Cell}
    (hK : ∀ k, K k → K' k) (hm : m ≤ m') (h : Reach reg dem lab elev K m u) :
    Reach reg dem lab elev K' m' u := by
  obtain ⟨k, a, b, c, d, e⟩ := h
  exact ⟨k, hK k a, b, c, d.trans hm, e.mono hm⟩

theorem TInv.mono {lab : Cell → Bool} {elev : Cell → E} {K K' : Cell → Prop}
    (I : TInv reg out dem lab elev K) (hK : ∀ k, K k → K' k) : TInv reg out dem lab elev K' :=
  ⟨I.lvl, I.same, fun v u a b c d e => (I.cov v u a b c d e).imp (hK v) (Reach.mono hK le_rfl)⟩

/-- Labelling a cell keeps what can be reached from the other cells. -/
theorem Reach.label {lab : Cell → Bool} {elev : Cell → E} {K : Cell → Prop} {m e : E} {u x : Cell}
    (hx : lab x = false) (hrx : reg x) (hux : u ≠ x) (he : dem x ≤ m → e ≤ m)
    (h : Reach reg dem lab elev K m u) :
    Reach reg dem (Function.update lab x true) (Function.update elev x e) (fun k => K k ∨ k = x) m u := by
  obtain ⟨k, hk, hr, hl, hm, hp⟩ := h
  have hkx : k ≠ x := by rintro rfl; rw [hx] at hl; cases hl
  induction hp with
  | @last u a b c d =>
    exact ⟨k, Or.inl hk, hr, by rw [Function.update_of_ne hkx]; exact hl,
      by rw [Function.update_of_ne hkx]; exact hm, .last a (by rw [Function.update_of_ne hux]; exact b) c d⟩
  | @step u u' a b c d hp ih =>
    have hb : Function.update lab x true u = false := by rw [Function.update_of_ne hux]; exact b
    by_cases hu' : u' = x
    · subst hu'
      exact ⟨u', Or.inr rfl, hrx, by simp, by simpa using he hp.head.2.2, .last a hb c d⟩
    · obtain ⟨k', k1, k2, k3, k4, k5⟩ := ih hu'
      exact ⟨k', k1, k2, k3, k4, .step a hb c d k5⟩

/-- Labelling a cell with its level. -/
theorem TInv.label {lab : Cell → Bool} {elev : Cell → E} {K : Cell → Prop} {x : Cell} {e : E}
    (I : TInv reg out dem lab elev K) (hx : lab x = false) (hrx : reg x) (hl : IsLvl reg out dem x e)
    (he : ∀ v u, reg v → lab v = true → reg u → lab u = false → Adj .D8 v u → dem x ≤ elev v → e ≤ elev v) :
    TInv reg out dem (Function.update lab x true) (Function.update elev x e) (fun k => K k ∨ k = x) := by
  refine ⟨?_, ?_, ?_⟩
  · intro v hv hlv
    by_cases h : v = x
    · subst h; simpa using hl
    · rw [Function.update_of_ne h] at hlv ⊢; exact I.lvl v hv hlv
  · intro v hv hlv
    by_cases h : v = x
    · subst h; simp at hlv
    · rw [Function.update_of_ne h] at hlv ⊢; exact I.same v hv hlv
  · intro v u hv hu hlv hlu ha
    have hux : u ≠ x := by rintro rfl; simp at hlu
    rw [Function.update_of_ne hux] at hlu
    by_cases h : v = x
    · exact Or.inl (Or.inr h)
    · rw [Function.update_of_ne h] at hlv
      rcases I.cov v u hv hu hlv hlu ha with hk | hr
      · exact Or.inl (Or.inl hk)
      · right
        rw [Function.update_of_ne h]
        exact hr.label hx hrx hux (he v u hv hlv hu hlu ha)

/-- A carrier may be dropped when from each unlabelled neighbour another one, not above it, is
reached. -/
theorem TInv.drop {lab : Cell → Bool} {elev : Cell → E} {K K' : Cell → Prop} {c : Cell}
    (I : TInv reg out dem lab elev K) (hK : ∀ k, K k → k = c ∨ K' k)
    (hc : ∀ u, reg u → lab u = false → Adj .D8 c u → K' c ∨ Reach reg dem lab elev K' (elev c) u) :
    TInv reg out dem lab elev K' := by
  refine ⟨I.lvl, I.same, ?_⟩
  intro v u hv hu hlv hlu ha
  rcases I.cov v u hv hu hlv hlu ha with hk | ⟨k, hk, hr, hl, hm, hp⟩
  · rcases hK v hk with h | h
    · subst h; exact hc u hu hlu ha
    · exact Or.inl h
  · right
    rcases hK k hk with h | h
    · subst h
      have key : ∀ w, UPath reg dem lab (elev v) k w → Reach reg dem lab elev K' (elev v) w := by
        intro w hw
        induction hw with
        | @last u a b c d =>
          rcases hc u a b d.symm with h | h
          · exact ⟨k, h, hr, hl, hm, .last a b c d⟩
          · exact h.mono (fun _ h => h) hm
        | @step u u' a b c d hp ih =>
          obtain ⟨k', k1, k2, k3, k4, k5⟩ := ih
          exact ⟨k', k1, k2, k3, k4, .step a b c d k5⟩
      exact key u hp
    · exact ⟨k, h, hr, hl, hm, hp⟩

/-- Lower bound: when no labelled frontier cell and no unlabelled outlet is below `z`, no unlabelled
cell drains below `z`. -/
theorem TInv.low {lab : Cell → Bool} {elev : Cell → E} {K : Cell → Prop} {z : E}
    (I : TInv reg out dem lab elev K)
    (h1 : ∀ u, reg u → lab u = false → out u → z ≤ dem u)
    (h2 : ∀ v u, reg v → lab v = true → reg u → lab u = false → Adj .D8 v u → z ≤ elev v) {u : Cell}
    (hl : lab u = false) {z' : E} (hd : SDrains reg out dem z' u) : z ≤ z' := by
  induction hd with
  | out a b c => exact (h1 _ a hl b).trans c
  | @step c d a b ha hd ih =>
    cases hld : lab d with
    | false => exact ih hld
    | true =>
      exact (h2 d c hd.mem hld a hl ha.symm).trans ((I.lvl d hd.mem hld).2 _ hd)

/-- A labelled neighbour `v` of `u` below `elev c` takes care of `u`. -/
theorem TInv.spill {lab : Cell → Bool} {elev : Cell → E} {K : Cell → Prop} {c u v : Cell}
    (I : TInv reg out dem lab elev K) (hv : reg v) (hu : reg u) (hlv : lab v = true) (hlu : lab u = false)
    (ha : Adj .D8 v u) (hlt : elev v < elev c) (hle : dem u ≤ elev c) :
    Reach reg dem lab elev (fun k => K k ∧ k ≠ c) (elev c) u := by
  rcases I.cov v u hv hu hlv hlu ha with hk | ⟨k, hk, hr, hl, hm, hp⟩
  · exact ⟨v, ⟨hk, by rintro rfl; exact lt_irrefl _ hlt⟩, hv, hlv, hlt.le, .last hu hlu hle ha.symm⟩
  · exact ⟨k, ⟨hk, by rintro rfl; exact absurd (hm.trans_lt hlt) (lt_irrefl _)⟩, hr, hl, hm.trans hlt.le,
      hp.mono hlt.le⟩

/-! ### The state of the two algorithms -/

/-- Raster, labels, heap and the queues; queue entries carry the elevation they were queued with
(the code of Zhou2016 queues indices only and looks the elevation up). -/
structure TS (E : Type*) where
  elev : Cell → E
  lab : Cell → Bool
  pq : List (E × Cell)
  dep : List (E × Cell)
  trace : List (E × Cell)
  pot : List (E × Cell)
  safe : Bool

/-- The cells waiting in some queue, or listed in `ex`. -/
def TS.K (s : TS E) (ex : List Cell) (x : Cell) : Prop :=
  x ∈ s.pq.map Prod.snd ∨ x ∈ s.dep.map Prod.snd ∨ x ∈ s.trace.map Prod.snd ∨ x ∈ s.pot.map Prod.snd ∨ x ∈ ex

/-- The invariant between and within the loops. -/
structure TSI (w h : Nat) (reg out : Cell → Prop) (dem : Cell → E) (s : TS E) (ex : List Cell) : Prop where
  inv : TInv reg out dem s.lab s.elev (s.K ex)
  pqok : ∀ e ∈ s.pq, reg e.2 ∧ e.1 = s.elev e.2 ∧ (s.lab e.2 = true ∨ out e.2)
  outq : ∀ c, reg c → out c → s.lab c = false → (dem c, c) ∈ s.pq
  depok : ∀ e ∈ s.dep, reg e.2 ∧ e.1 = s.elev e.2 ∧ s.lab e.2 = true
  traceok : ∀ e ∈ s.trace, reg e.2 ∧ e.1 = s.elev e.2 ∧ s.lab e.2 = true
  potok : ∀ e ∈ s.pot, reg e.2 ∧ e.1 = s.elev e.2 ∧ s.lab e.2 = true
  bud : s.dep.length + s.trace.length + unflagged w h s.lab ≤ w * h
  regs : ∀ c, reg c → InGrid w h c
  unreg : ∀ c, InGrid w h c → s.lab c = false → reg c

/-- While the cells around a heap cell of elevation `z` are being processed: no cell that is still
unlabelled drains below `z`, and the labelled frontier is not below `z`. -/
structure TSZ (reg out : Cell → Prop) (dem : Cell → E) (z : E) (s : TS E) : Prop where
  low : ∀ u, s.lab u = false → ∀ z', SDrains reg out dem z' u → z ≤ z'
  front : ∀ v u, reg v → s.lab v = true → reg u → s.lab u = false → Adj .D8 v u → z ≤ s.elev v
  depz : ∀ e ∈ s.dep, e.1 = z

/-- The total that shrinks. -/
def TS.size (w h : Nat) (s : TS E) : Nat :=
  s.pq.length + s.dep.length + s.trace.length + s.pot.length + unflagged w h s.lab

/-- What the two inner loops can still do. -/
def TS.mu (w h : Nat) (s : TS E) : Nat := s.dep.length + s.trace.length + unflagged w h s.lab

section ops
variable {w h : Nat} {s : TS E} {ex : List Cell} {z : E}

/-- The state after a slope cell was labelled and queued for tracing. -/
def TS.slope (s : TS E) (q : Cell) : TS E :=
  { s with lab := Function.update s.lab q true, trace := s.trace ++ [(s.elev q, q)] }

/-- The state after a depression cell was raised to `z`, labelled and queued. -/
def TS.pit (s : TS E) (z : E) (q : Cell) : TS E :=
  { s with lab := Function.update s.lab q true, elev := Function.update s.elev q z, dep := s.dep ++ [(z, q)] }

theorem TSI.slope (I : TSI w h reg out dem s ex) (Z : TSZ reg out dem z s) {q v : Cell} (hq : reg q)
    (hl : s.lab q = false) (hv : reg v) (hlv : s.lab v = true) (ha : Adj .D8 v q) (hle : s.elev v ≤ s.elev q) :
    TSI w h reg out dem (s.slope q) ex ∧ TSZ reg out dem z (s.slope q) ∧
    (s.slope q).size w h = s.size w h ∧ (s.slope q).mu w h = s.mu w h := by
  have hsame := I.inv.same q hq hl
  have hlvl : IsLvl reg out dem q (s.elev q) := by
    rw [hsame]; rw [hsame] at hle; exact lvl_slope hq ha.symm (I.inv.lvl v hv hlv) hle
  have T := I.inv.label (e := s.elev q) hl hq hlvl (fun v u _ _ _ _ _ h => by rw [hsame]; exact h)
  rw [Function.update_eq_self] at T
  have mono : ∀ x, s.lab x = true → Function.update s.lab q true x = true := by
    intro x hx
    by_cases h : x = q
    · subst h; simp
    · rwa [Function.update_of_ne h]
  have back : ∀ x, Function.update s.lab q true x = false → s.lab x = false := by
    intro x hx
    by_cases h : x = q
    · subst h; simp at hx
    · rwa [Function.update_of_ne h] at hx
  have hun := unflagged_update (I.regs q hq) hl
  refine ⟨⟨?_, ?_, ?_, ?_, ?_, ?_, ?_, I.regs, ?_⟩, ⟨?_, ?_, Z.depz⟩, ?_, ?_⟩
  · refine T.mono ?_
    rintro k (hk | hk)
    · rcases hk with hk | hk | hk | hk | hk
      · exact Or.inl hk
      · exact Or.inr (Or.inl hk)
      · exact Or.inr (Or.inr (Or.inl (by simp only [TS.slope, List.map_append]; exact List.mem_append_left _ hk)))
      · exact Or.inr (Or.inr (Or.inr (Or.inl hk)))
      · exact Or.inr (Or.inr (Or.inr (Or.inr hk)))
    · exact Or.inr (Or.inr (Or.inl (by simp [TS.slope, hk])))
  · intro e he; obtain ⟨a, b, c⟩ := I.pqok e he; exact ⟨a, b, c.imp (mono _) id⟩
  · intro c h1 h2 h3; exact I.outq c h1 h2 (back c h3)
  · intro e he; obtain ⟨a, b, c⟩ := I.depok e he; exact ⟨a, b, mono _ c⟩
  · intro e he
    rcases List.mem_append.1 he with he | he
    · obtain ⟨a, b, c⟩ := I.traceok e he; exact ⟨a, b, mono _ c⟩
    · rw [List.mem_singleton] at he; subst he; exact ⟨hq, rfl, by simp [TS.slope]⟩
  · intro e he; obtain ⟨a, b, c⟩ := I.potok e he; exact ⟨a, b, mono _ c⟩
  · have := I.bud
    simp only [TS.slope, List.length_append, List.length_singleton]; omega
  · intro c hc h3; exact I.unreg c hc (back c h3)
  · intro u hu; exact Z.low u (back u hu)
  · intro v' u h1 h2 h3 h4 h5
    by_cases h : v' = q
    · subst h; exact Z.low v' hl _ hlvl.1
    · have h2' : s.lab v' = true := by
        have h2 : Function.update s.lab q true v' = true := h2
        rwa [Function.update_of_ne h] at h2
      exact Z.front v' u h1 h2' h3 (back u h4) h5
  · simp only [TS.size, TS.slope, List.length_append, List.length_singleton]; omega
  · simp only [TS.mu, TS.slope, List.length_append, List.length_singleton]; omega

theorem TSI.pit (I : TSI w h reg out dem s ex) (Z : TSZ reg out dem z s) {q v : Cell} (hq : reg q)
    (hl : s.lab q = false) (hv : reg v) (hlv : s.lab v = true) (ha : Adj .D8 v q) (hvz : s.elev v = z)
    (hle : s.elev q ≤ z) :
    TSI w h reg out dem (s.pit z q) ex ∧ TSZ reg out dem z (s.pit z q) ∧
    (s.pit z q).size w h = s.size w h ∧ (s.pit z q).mu w h = s.mu w h := by
  have hsame := I.inv.same q hq hl
  have hlow := Z.low q hl
  have hlvl : IsLvl reg out dem q z := by
    rw [hsame] at hle
    have hL := I.inv.lvl v hv hlv
    rw [hvz] at hL
    exact lvl_pit hq hle ha.symm hL hlow
  have T := I.inv.label (e := z) hl hq hlvl (fun v u a b c d e _ => Z.front v u a b c d e)
  have mono : ∀ x, s.lab x = true → Function.update s.lab q true x = true := by
    intro x hx
    by_cases h : x = q
    · subst h; simp
    · rwa [Function.update_of_ne h]
  have back : ∀ x, Function.update s.lab q true x = false → s.lab x = false := by
    intro x hx
    by_cases h : x = q
    · subst h; simp at hx
    · rwa [Function.update_of_ne h] at hx
  have same' : ∀ x, s.lab x = true → Function.update s.elev q z x = s.elev x := by
    intro x hx
    rw [Function.update_of_ne (by rintro rfl; rw [hl] at hx; cases hx)]
  have hun := unflagged_update (I.regs q hq) hl
  refine ⟨⟨?_, ?_, ?_, ?_, ?_, ?_, ?_, I.regs, ?_⟩, ⟨?_, ?_, ?_⟩, ?_, ?_⟩
  · refine T.mono ?_
    rintro k (hk | hk)
    · rcases hk with hk | hk | hk | hk | hk
      · exact Or.inl hk
      · exact Or.inr (Or.inl (by simp only [TS.pit, List.map_append]; exact List.mem_append_left _ hk))
      · exact Or.inr (Or.inr (Or.inl hk))
      · exact Or.inr (Or.inr (Or.inr (Or.inl hk)))
      · exact Or.inr (Or.inr (Or.inr (Or.inr hk)))
    · exact Or.inr (Or.inl (by simp [TS.pit, hk]))
  · intro e he
    obtain ⟨a, b, c⟩ := I.pqok e he
    refine ⟨a, ?_, c.imp (mono _) id⟩
    show e.1 = Function.update s.elev q z e.2
    by_cases h : e.2 = q
    · rw [h, Function.update_self, b, h]
      refine le_antisymm hle ?_
      rcases c with c | c
      · rw [h, hl] at c; cases c
      · rw [h] at c
        rw [hsame]
        exact hlow _ (.out hq c le_rfl)
    · rw [Function.update_of_ne h]; exact b
  · intro c h1 h2 h3; exact I.outq c h1 h2 (back c h3)
  · intro e he
    rcases List.mem_append.1 he with he | he
    · obtain ⟨a, b, c⟩ := I.depok e he; exact ⟨a, by rw [b]; exact (same' _ c).symm, mono _ c⟩
    · rw [List.mem_singleton] at he; subst he; exact ⟨hq, by simp [TS.pit], by simp [TS.pit]⟩
  · intro e he; obtain ⟨a, b, c⟩ := I.traceok e he; exact ⟨a, by rw [b]; exact (same' _ c).symm, mono _ c⟩
  · intro e he; obtain ⟨a, b, c⟩ := I.potok e he; exact ⟨a, by rw [b]; exact (same' _ c).symm, mono _ c⟩
  · have := I.bud
    simp only [TS.pit, List.length_append, List.length_singleton]; omega
  · intro c hc h3; exact I.unreg c hc (back c h3)
  · intro u hu; exact Z.low u (back u hu)
  · intro v' u h1 h2 h3 h4 h5
    show z ≤ Function.update s.elev q z v'
    by_cases h : v' = q
    · subst h; simp
    · have h2' : s.lab v' = true := by
        have h2 : Function.update s.lab q true v' = true := h2
        rwa [Function.update_of_ne h] at h2
      rw [Function.update_of_ne h]
      exact Z.front v' u h1 h2' h3 (back u h4) h5
  · intro e he
    rcases List.mem_append.1 he with he | he
    · exact Z.depz e he
    · rw [List.mem_singleton] at he; subst he; rfl
  · simp only [TS.size, TS.pit, List.length_append, List.length_singleton]; omega
  · simp only [TS.mu, TS.pit, List.length_append, List.length_singleton]; omega

/-- Dropping an extra carrier all of whose neighbours are labelled or taken care of. -/
theorem TSI.drop {c : Cell} (I : TSI w h reg out dem s (c :: ex))
    (hc : ∀ u, reg u → s.lab u = false → Adj .D8 c u →
      s.K ex c ∨ Reach reg dem s.lab s.elev (s.K ex) (s.elev c) u) : TSI w h reg out dem s ex := by
  refine ⟨I.inv.drop (c := c) ?_ hc, I.pqok, I.outq, I.depok, I.traceok, I.potok, I.bud, I.regs, I.unreg⟩
  rintro k (hk | hk | hk | hk | hk)
  · exact Or.inr (Or.inl hk)
  · exact Or.inr (Or.inr (Or.inl hk))
  · exact Or.inr (Or.inr (Or.inr (Or.inl hk)))
  · exact Or.inr (Or.inr (Or.inr (Or.inr (Or.inl hk))))
  · rcases List.mem_cons.1 hk with hk | hk
    · exact Or.inl hk
    · exact Or.inr (Or.inr (Or.inr (Or.inr (Or.inr hk))))

theorem TSI.popDep {e : E × Cell} {r : List (E × Cell)} (I : TSI w h reg out dem s ex) (Z : TSZ reg out dem z s)
    (hd : s.dep = e :: r) :
    TSI w h reg out dem { s with dep := r } (e.2 :: ex) ∧ TSZ reg out dem z { s with dep := r } ∧
    ({ s with dep := r } : TS E).size w h + 1 = s.size w h ∧
    ({ s with dep := r } : TS E).mu w h + 1 = s.mu w h := by
  have hm : ∀ x ∈ r, x ∈ s.dep := fun x hx => by rw [hd]; exact List.mem_cons_of_mem _ hx
  refine ⟨⟨I.inv.mono ?_, I.pqok, I.outq, fun x hx => I.depok x (hm x hx), I.traceok, I.potok, ?_, I.regs, I.unreg⟩,
    ⟨Z.low, Z.front, fun x hx => Z.depz x (hm x hx)⟩, ?_, ?_⟩
  · rintro k (hk | hk | hk | hk | hk)
    · exact Or.inl hk
    · rw [hd, List.map_cons] at hk
      rcases List.mem_cons.1 hk with hk | hk
      · exact Or.inr (Or.inr (Or.inr (Or.inr (by rw [hk]; exact List.mem_cons_self))))
      · exact Or.inr (Or.inl hk)
    · exact Or.inr (Or.inr (Or.inl hk))
    · exact Or.inr (Or.inr (Or.inr (Or.inl hk)))
    · exact Or.inr (Or.inr (Or.inr (Or.inr (List.mem_cons_of_mem _ hk))))
  · have := I.bud
    rw [hd, List.length_cons] at this
    show r.length + s.trace.length + unflagged w h s.lab ≤ w * h
    omega
  · simp only [TS.size, hd, List.length_cons]; omega
  · simp only [TS.mu, hd, List.length_cons]; omega

theorem TSI.popTrace {e : E × Cell} {r : List (E × Cell)} (I : TSI w h reg out dem s ex)
    (hd : s.trace = e :: r) :
    TSI w h reg out dem { s with trace := r } (e.2 :: ex) ∧
    ({ s with trace := r } : TS E).size w h + 1 = s.size w h ∧
    ({ s with trace := r } : TS E).mu w h + 1 = s.mu w h := by
  have hm : ∀ x ∈ r, x ∈ s.trace := fun x hx => by rw [hd]; exact List.mem_cons_of_mem _ hx
  refine ⟨⟨I.inv.mono ?_, I.pqok, I.outq, I.depok, fun x hx => I.traceok x (hm x hx), I.potok, ?_, I.regs, I.unreg⟩, ?_, ?_⟩
  · rintro k (hk | hk | hk | hk | hk)
    · exact Or.inl hk
    · exact Or.inr (Or.inl hk)
    · rw [hd, List.map_cons] at hk
      rcases List.mem_cons.1 hk with hk | hk
      · exact Or.inr (Or.inr (Or.inr (Or.inr (by rw [hk]; exact List.mem_cons_self))))
      · exact Or.inr (Or.inr (Or.inl hk))
    · exact Or.inr (Or.inr (Or.inr (Or.inl hk)))
    · exact Or.inr (Or.inr (Or.inr (Or.inr (List.mem_cons_of_mem _ hk))))
  · have := I.bud
    rw [hd, List.length_cons] at this
    show s.dep.length + r.length + unflagged w h s.lab ≤ w * h
    omega
  · simp only [TS.size, hd, List.length_cons]; omega
  · simp only [TS.mu, hd, List.length_cons]; omega

theorem TSI.popPot {e : E × Cell} {r : List (E × Cell)} (I : TSI w h reg out dem s ex)
    (hd : s.pot = e :: r) :
    TSI w h reg out dem { s with pot := r } (e.2 :: ex) ∧
    ({ s with pot := r } : TS E).size w h + 1 = s.size w h := by
  have hm : ∀ x ∈ r, x ∈ s.pot := fun x hx => by rw [hd]; exact List.mem_cons_of_mem _ hx
  refine ⟨⟨I.inv.mono ?_, I.pqok, I.outq, I.depok, I.traceok, fun x hx => I.potok x (hm x hx), I.bud, I.regs, I.unreg⟩, ?_⟩
  · rintro k (hk | hk | hk | hk | hk)
    · exact Or.inl hk
    · exact Or.inr (Or.inl hk)
    · exact Or.inr (Or.inr (Or.inl hk))
    · rw [hd, List.map_cons] at hk
      rcases List.mem_cons.1 hk with hk | hk
      · exact Or.inr (Or.inr (Or.inr (Or.inr (by rw [hk]; exact List.mem_cons_self))))
      · exact Or.inr (Or.inr (Or.inr (Or.inl hk)))
    · exact Or.inr (Or.inr (Or.inr (Or.inr (List.mem_cons_of_mem _ hk))))
  · simp only [TS.size, hd, List.length_cons]; omega

theorem TSI.pushPQ {pq : PQ (E × Cell) zLt} {e : E × Cell} (I : TSI w h reg out dem s ex)
    (h1 : reg e.2) (h2 : e.1 = s.elev e.2) (h3 : s.lab e.2 = true) :
    TSI w h reg out dem { s with pq := pq.push e s.pq } ex ∧
    ({ s with pq := pq.push e s.pq } : TS E).size w h = s.size w h + 1 ∧
    (∀ k, s.K ex k → ({ s with pq := pq.push e s.pq } : TS E).K ex k) ∧
    ({ s with pq := pq.push e s.pq } : TS E).K ex e.2 := by
  have hK : ∀ k, s.K ex k → ({ s with pq := pq.push e s.pq } : TS E).K ex k := by
    rintro k (hk | hk | hk | hk | hk)
    · obtain ⟨x, hx, rfl⟩ := List.mem_map.1 hk
      exact Or.inl (List.mem_map_of_mem (pq.mem_push.2 (Or.inr hx)))
    · exact Or.inr (Or.inl hk)
    · exact Or.inr (Or.inr (Or.inl hk))
    · exact Or.inr (Or.inr (Or.inr (Or.inl hk)))
    · exact Or.inr (Or.inr (Or.inr (Or.inr hk)))
  refine ⟨⟨I.inv.mono hK, ?_, fun c a b d => pq.mem_push.2 (Or.inr (I.outq c a b d)), I.depok, I.traceok, I.potok,
    I.bud, I.regs, I.unreg⟩, ?_, hK, Or.inl (List.mem_map_of_mem (pq.mem_push.2 (Or.inl rfl)))⟩
  · intro x hx
    rcases pq.mem_push.1 hx with rfl | hx
    · exact ⟨h1, h2, Or.inl h3⟩
    · exact I.pqok x hx
  · simp only [TS.size, pq.length_push]; omega

theorem TSI.pushPot {e : E × Cell} (I : TSI w h reg out dem s ex)
    (h1 : reg e.2) (h2 : e.1 = s.elev e.2) (h3 : s.lab e.2 = true) :
    TSI w h reg out dem { s with pot := s.pot ++ [e] } ex ∧
    ({ s with pot := s.pot ++ [e] } : TS E).size w h = s.size w h + 1 ∧
    (∀ k, s.K ex k → ({ s with pot := s.pot ++ [e] } : TS E).K ex k) ∧
    ({ s with pot := s.pot ++ [e] } : TS E).K ex e.2 := by
  have hK : ∀ k, s.K ex k → ({ s with pot := s.pot ++ [e] } : TS E).K ex k := by
    rintro k (hk | hk | hk | hk | hk)
    · exact Or.inl hk
    · exact Or.inr (Or.inl hk)
    · exact Or.inr (Or.inr (Or.inl hk))
    · obtain ⟨x, hx, rfl⟩ := List.mem_map.1 hk
      exact Or.inr (Or.inr (Or.inr (Or.inl (List.mem_map_of_mem (List.mem_append_left _ hx)))))
    · exact Or.inr (Or.inr (Or.inr (Or.inr hk)))
  refine ⟨⟨I.inv.mono hK, I.pqok, I.outq, I.depok, I.traceok, ?_,
    I.bud, I.regs, I.unreg⟩, ?_, hK, Or.inr (Or.inr (Or.inr (Or.inl
      (List.mem_map_of_mem (List.mem_append_right _ List.mem_cons_self)))))⟩
  · intro x hx
    rcases List.mem_append.1 hx with hx | hx
    · exact I.potok x hx
    · rw [List.mem_singleton] at hx; subst hx; exact ⟨h1, h2, h3⟩
  · simp only [TS.size, List.length_append, List.length_singleton]; omega

/-- Taking the lowest entry off the heap and labelling it. -/
theorem TSI.popPQ {pq : PQ (E × Cell) zLt} {e : E × Cell} {r : List (E × Cell)} (I : TSI w h reg out dem s [])
    (hp : pq.pop s.pq = some (e, r)) (h1 : s.dep = []) (h2 : s.trace = []) (h3 : s.pot = []) :
    TSI w h reg out dem { s with pq := r, lab := Function.update s.lab e.2 true } [e.2] ∧
    TSZ reg out dem e.1 { s with pq := r, lab := Function.update s.lab e.2 true } ∧
    ({ s with pq := r, lab := Function.update s.lab e.2 true } : TS E).size w h < s.size w h ∧
    reg e.2 ∧ e.1 = s.elev e.2 := by
  obtain ⟨hperm, hmin⟩ := pq.pop_some hp
  obtain ⟨e1, e2, e3⟩ := I.pqok e (hperm.mem_iff.2 List.mem_cons_self)
  have hin : ∀ x ∈ r, x ∈ s.pq := fun x hx => hperm.mem_iff.2 (List.mem_cons_of_mem _ hx)
  have hK : ∀ k, s.K [] k → k ∈ s.pq.map Prod.snd := by
    rintro k (hk | hk | hk | hk | hk)
    · exact hk
    · rw [h1] at hk; simp at hk
    · rw [h2] at hk; simp at hk
    · rw [h3] at hk; simp at hk
    · simp at hk
  have hge : ∀ k, s.K [] k → e.1 ≤ s.elev k := by
    intro k hk
    obtain ⟨x, hx, rfl⟩ := List.mem_map.1 (hK k hk)
    rw [← (I.pqok x hx).2.1]
    exact not_lt.1 (hmin x hx)
  have hfront : ∀ v u, reg v → s.lab v = true → reg u → s.lab u = false → Adj .D8 v u → e.1 ≤ s.elev v := by
    intro v u a b c d f
    rcases I.inv.cov v u a c b d f with hk | ⟨k, hk, _, _, hm, _⟩
    · exact hge v hk
    · exact (hge k hk).trans hm
  have hlow : ∀ u, s.lab u = false → ∀ z', SDrains reg out dem z' u → e.1 ≤ z' := by
    intro u hu z' hd
    refine I.inv.low ?_ hfront hu hd
    intro x a b c
    exact not_lt.1 (hmin _ (I.outq x a c b))
  have mono : ∀ x, s.lab x = true → Function.update s.lab e.2 true x = true := by
    intro x hx
    by_cases h : x = e.2
    · subst h; simp
    · rwa [Function.update_of_ne h]
  have back : ∀ x, Function.update s.lab e.2 true x = false → x ≠ e.2 ∧ s.lab x = false := by
    intro x hx
    by_cases h : x = e.2
    · subst h; simp at hx
    · rw [Function.update_of_ne h] at hx; exact ⟨h, hx⟩
  have T : TInv reg out dem (Function.update s.lab e.2 true) s.elev (fun k => s.K [] k ∨ k = e.2) := by
    cases hl : s.lab e.2 with
    | true =>
      rw [show Function.update s.lab e.2 true = s.lab from by rw [← hl]; exact Function.update_eq_self _ _]
      exact I.inv.mono (fun _ h => Or.inl h)
    | false =>
      have ho : out e.2 := e3.resolve_left (by rw [hl]; simp)
      have hs := I.inv.same _ e1 hl
      have := I.inv.label (e := s.elev e.2) hl e1 (by rw [hs]; exact lvl_out e1 ho)
        (fun v u _ _ _ _ _ h => by rw [hs]; exact h)
      rwa [Function.update_eq_self] at this
  have hunf : unflagged w h (Function.update s.lab e.2 true) ≤ unflagged w h s.lab := by
    cases hl : s.lab e.2 with
    | true => rw [show Function.update s.lab e.2 true = s.lab from by rw [← hl]; exact Function.update_eq_self _ _]
    | false => have := unflagged_update (I.regs _ e1) hl; omega
  refine ⟨⟨T.mono ?_, ?_, ?_, ?_, ?_, ?_, ?_, I.regs, ?_⟩, ⟨?_, ?_, ?_⟩, ?_, e1, e2⟩
  · rintro k (hk | hk)
    · have := hK k hk
      rw [(hperm.map Prod.snd).mem_iff, List.map_cons] at this
      rcases List.mem_cons.1 this with h | h
      · exact Or.inr (Or.inr (Or.inr (Or.inr (by simp [h]))))
      · exact Or.inl h
    · exact Or.inr (Or.inr (Or.inr (Or.inr (by simp [hk]))))
  · intro x hx; obtain ⟨a, b, c⟩ := I.pqok x (hin x hx); exact ⟨a, b, c.imp (mono _) id⟩
  · intro c a b d
    obtain ⟨hne, hl⟩ := back c d
    rcases List.mem_cons.1 (hperm.mem_iff.1 (I.outq c a b hl)) with h | h
    · exact absurd (by rw [← h]) hne
    · exact h
  · intro x hx; obtain ⟨a, b, c⟩ := I.depok x hx; exact ⟨a, b, mono _ c⟩
  · intro x hx; obtain ⟨a, b, c⟩ := I.traceok x hx; exact ⟨a, b, mono _ c⟩
  · intro x hx; obtain ⟨a, b, c⟩ := I.potok x hx; exact ⟨a, b, mono _ c⟩
  · have := I.bud
    show s.dep.length + s.trace.length + unflagged w h (Function.update s.lab e.2 true) ≤ w * h
    omega
  · intro c hc h; exact I.unreg c hc (back c h).2
  · intro u hu; exact hlow u (back u hu).2
  · intro v u a b c d f
    by_cases h : v = e.2
    · subst h; exact e2.le
    · have b' : s.lab v = true := by
        have b : Function.update s.lab e.2 true v = true := b
        rwa [Function.update_of_ne h] at b
      exact hfront v u a b' c (back u d).2 f
  · intro x hx
    rw [show ({ s with pq := r, lab := Function.update s.lab e.2 true } : TS E).dep = [] from h1] at hx
    simp at hx
  · have := hperm.length_eq
    rw [List.length_cons] at this
    simp only [TS.size]; omega

end ops

end RichDEM
