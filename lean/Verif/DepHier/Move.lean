/-
Model of the movement of water through the depression hierarchy
(include/richdem/depressions/fill_spill_merge.hpp:367-590): `MoveWaterInDepHier` and
`OverflowInto`.  Arithmetic is exact (the code uses `double`).
-/
import Verif.DepHier.Volume

namespace RichDEM

/-- Outcome of a recursive procedure: a result, a failed assertion or exception, or more nested
calls than allowed. -/
inductive FRes (α : Type)
  | ok (a : α)
  | fail
  | deep

def FRes.bind {α β : Type} (r : FRes α) (f : α → FRes β) : FRes β :=
  match r with
  | .ok a => f a
  | .fail => .fail
  | .deep => .deep

/-- The `water_vol` fields and the jump table. -/
structure FSM (E : Type) where
  water : Nat → E
  jump : Nat → Option Nat

section Model
variable {E : Type} [CommRing E] [LinearOrder E]

/-- fill_spill_merge.hpp:515-524: an overfull depression is emptied to the brim; returns the water
levels and the carried water. -/
def pickUp (vol : Nat → E) (w : Nat → E) (ex : E) (r : Nat) : (Nat → E) × E :=
  if vol r < w r then (upd w r (vol r), ex + (w r - vol r)) else (w, ex)

/-- fill_spill_merge.hpp:541-550: first place to stash water. -/
def stash (vol : Nat → E) (w : Nat → E) (ex : E) (r : Nat) : (Nat → E) × E :=
  if w r < vol r then
    if ex < vol r - w r then (upd w r (min (w r + ex) (vol r)), 0)
    else (upd w r (vol r), ex - (vol r - w r))
  else (w, ex)

/-- fill_spill_merge.hpp:588-594: the parent learns about the water of its full children. -/
def tellParent (dep : Nat → Dep E) (w : Nat → E) (r p : Nat) : Nat → E :=
  if w p = 0 ∧ (dep r).oceanParent = false then
    upd w p (match (dep r).odep with
      | none => w p + w r
      | some b => w p + w r + w b)
  else w

/-- fill_spill_merge.hpp:560,571,597: store the place found in the jump table. -/
def setJump (r : Nat) (x : Nat × FSM E) : FRes (Nat × FSM E) :=
  .ok (x.1, { x.2 with jump := upd x.2.jump r (some x.1) })

/-- fill_spill_merge.hpp:503-598 (`OverflowInto`), at most `f` nested calls.  `eps` is the tolerance
of `fp_eq`; `n` the number of depressions (`deps.at` throws beyond). -/
def overflowInto (n : Nat) (dep : Nat → Dep E) (vol : Nat → E) (eps : E) :
    Nat → Nat → Nat → FSM E → E → FRes (Nat × FSM E)
  | 0, _, _, _, _ => .deep
  | f + 1, root, stop, s, ex =>
    if ¬ root < n then .fail
    else
      let p1 := pickUp vol s.water ex root
      if root = stop ∨ root = 0 then                                                 -- :532-537
        .ok (root, { s with water := upd p1.1 root (p1.1 root + p1.2) })
      else
        let p2 := stash vol p1.1 p1.2 root
        if -eps < p2.2 ∧ p2.2 < eps then .ok (root, { s with water := p2.1 })        -- :553
        else
          match s.jump root with
          | some j =>                                                                -- :559-561
            (overflowInto n dep vol eps f j stop { s with water := p2.1 } p2.2).bind (setJump root)
          | none =>
            let climb : (Nat → E) → E → FRes (Nat × FSM E) := fun w ex =>            -- :588-597
              match (dep root).parent with
              | none => .fail
              | some p =>
                if ¬ p < n then .fail
                else (overflowInto n dep vol eps f p stop { s with water := tellParent dep w root p } ex).bind
                  (setJump root)
            match (dep root).odep with
            | none => climb p2.1 p2.2
            | some b =>
              if ¬ b < n then .fail
              else if p2.1 b < vol b then                                            -- :569-571
                match (dep root).geolink with
                | none => .fail
                | some g => (overflowInto n dep vol eps f g stop { s with water := p2.1 } p2.2).bind (setJump root)
              else
                let p3 := pickUp vol p2.1 p2.2 b                                     -- :572-576
                climb p3.1 p3.2

/-- fill_spill_merge.hpp:400-413: full children of a dry parent make it full. -/
def fillFromKids (dep : Nat → Dep E) (vol : Nat → E) (w : Nat → E) (d : Nat) : Nat → E :=
  match (dep d).lchild, (dep d).rchild with
  | some a, some b => if w a = vol a ∧ w b = vol b ∧ w d = 0 then upd w d (w d + (w a + w b)) else w
  | _, _ => w

/-- fill_spill_merge.hpp:434-435: the children of an overflowing depression are full. -/
def kidsFull (dep : Nat → Dep E) (vol : Nat → E) (w : Nat → E) (d : Nat) : Bool :=
  (match (dep d).lchild with
    | none => true
    | some a => decide (w a = vol a)) &&
  (match (dep d).rchild with
    | none => true
    | some b => decide (w b = vol b))

/-- fill_spill_merge.hpp:367-451 (`MoveWaterInDepHier`), at most `f` nested calls.  The last
assertion (:443-451) is checked in the stronger form `water_vol <= dep_vol`. -/
def moveWater (n : Nat) (dep : Nat → Dep E) (vol : Nat → E) (eps : E) : Nat → Nat → FSM E → FRes (FSM E)
  | 0, _, _ => .deep
  | f + 1, d, s =>
    if ¬ d < n then .fail
    else
      (((dep d).oceanLinked ++ (dep d).lchild.toList ++ (dep d).rchild.toList).foldl
        (fun (r : FRes (FSM E)) c => r.bind (moveWater n dep vol eps f c)) (FRes.ok s)).bind fun s =>
      if d = 0 then .ok s
      else
        let w := fillFromKids dep vol s.water d
        if vol d < w d then
          if ¬ kidsFull dep vol w d then .fail
          else match (dep d).parent with
            | none => .fail
            | some p =>
              (overflowInto n dep vol eps f d p { s with water := w } 0).bind fun x =>
                if x.2.water d ≤ vol d then .ok x.2 else .fail
        else .ok { s with water := w }

end Model

/-! ## Conservation -/

/-- What the movement of water needs to know about a hierarchy. -/
structure FlowTree {E : Type} [LinearOrder E] (n0 n : Nat) (dep : Nat → Dep E) : Prop extends DepTree n0 n dep where
  ocp : ∀ x p, (dep x).parent = some p → (dep x).oceanParent = true → x < n ∧ p < n0 ∧ (dep x).odep = none ∧
    x ∈ (dep p).oceanLinked
  od : ∀ x p, upOf dep x = some p → ∃ b g, (dep x).odep = some b ∧ upOf dep b = some p ∧ b ≠ x ∧
    (dep x).geolink = some g ∧ g < n0 ∧ Anc dep g b
  lk : ∀ p x, x ∈ (dep p).oceanLinked → (dep x).parent = some p ∧ (dep x).oceanParent = true
  nd : ∀ p, (dep p).oceanLinked.Nodup
  reach : ∀ x, x < n → AncU (fun y => (dep y).parent) x 0

theorem HierInv.flowTree {E : Type} [LinearOrder E] {n0 : Nat} {os : List (Outlet E)} {rep : Nat → Nat} {H : Hier E}
    (J : HierInv n0 os [] rep H) (hlink : ∀ x, x < H.n → x ≠ 0 → (H.dep x).parent ≠ none) :
    FlowTree n0 H.n H.dep where
  toDepTree := J.depTree hlink
  ocp := by
    intro x p h1 h2
    obtain ⟨a1, a2, _, _, a5, _, a7⟩ := J.oc x p h1 h2
    exact ⟨a1, a2, a7, a5⟩
  od := by
    intro x p h
    obtain ⟨_, _, _, _, hk⟩ := J.up x p h
    cases hl : (H.dep p).lchild with
    | none =>
      have := J.leafr p hl
      rw [hl, this] at hk
      rcases hk with hk | hk <;> cases hk
    | some a =>
      obtain ⟨b, k1, k2, k3, k4, k5, k6, k7, k8, k9, k10, k11, k12, k13, k14, k15, k16, ⟨g, k17, k18, k18'⟩,
        ⟨g', k19, k20, k20'⟩⟩ := J.kids p a hl
      have ua : upOf H.dep a = some p := by unfold upOf; simp [k9, k11]
      have ub : upOf H.dep b = some p := by unfold upOf; simp [k10, k12]
      rw [hl, k1] at hk
      rcases hk with hk | hk
      · cases hk; exact ⟨b, g, k13, ub, Ne.symm k2, k17, k18, k18'⟩
      · cases hk; exact ⟨a, g', k14, ua, k2, k19, k20, k20'⟩
  lk := J.linked
  nd := J.nodup
  reach := J.reach_ocean hlink

section Cons
variable {E : Type} [CommRing E] [LinearOrder E] [IsStrictOrderedRing E]
variable {n0 n : Nat} {dep : Nat → Dep E} {vol : Nat → E} {eps : E}

/-- Volumes as computed by `CalculateTotalVolumes` (C43): not negative, and a metadepression holds
at least what its children hold. -/
structure VolOk (n0 n : Nat) (dep : Nat → Dep E) (vol : Nat → E) : Prop where
  nonneg : ∀ d, d < n → 0 ≤ vol d
  super : ∀ d a b, d < n → (dep d).lchild = some a → (dep d).rchild = some b → vol a + vol b ≤ vol d

/-- Total volume of the children. -/
def kidVol (dep : Nat → Dep E) (vol : Nat → E) (d : Nat) : E :=
  match (dep d).lchild, (dep d).rchild with
  | some a, some b => vol a + vol b
  | _, _ => 0

/-- The state invariant; `act` marks the metadepressions whose water includes that of their
(full) children. -/
structure WaterInv (n0 n : Nat) (dep : Nat → Dep E) (vol : Nat → E) (act : Nat → Bool) (s : FSM E) : Prop where
  nn : ∀ d, d < n → 0 ≤ s.water d
  i1 : ∀ d, n0 ≤ d → d < n → s.water d ≠ 0 → act d = true
  i2 : ∀ d c, act d = true → upOf dep c = some d → vol c ≤ s.water c
  i4 : ∀ d, act d = true → kidVol dep vol d ≤ s.water d
  al : ∀ d, act d = true → n0 ≤ d ∧ d < n
  jm : ∀ r j, s.jump r = some j → j < n ∧ (j < n0 ∨ act j = true)

/-- Water in the hierarchy. -/
def amount (n : Nat) (dep : Nat → Dep E) (vol : Nat → E) (act : Nat → Bool) (w : Nat → E) : E :=
  (Finset.range n).sum (fun d => w d - if act d then kidVol dep vol d else 0)

omit [LinearOrder E] [IsStrictOrderedRing E] in
theorem amount_upd (act : Nat → Bool) (w : Nat → E) {r : Nat} (hr : r < n) (x : E) :
    amount n dep vol act (upd w r x) = amount n dep vol act w + (x - w r) := by
  unfold amount
  have : ∀ d ∈ Finset.range n, (upd w r x d - if act d then kidVol dep vol d else 0) =
      (w d - if act d then kidVol dep vol d else 0) + if d = r then x - w r else 0 := by
    intro d _
    by_cases h : d = r
    · subst h; rw [upd_same, if_pos rfl]; ring
    · rw [upd_ne _ _ _ h, if_neg h]; ring
  rw [Finset.sum_congr rfl this, Finset.sum_add_distrib, Finset.sum_ite_eq' (Finset.range n) r]
  simp [hr]

omit [LinearOrder E] [IsStrictOrderedRing E] in
theorem amount_act (act : Nat → Bool) (w : Nat → E) {p : Nat} (hp : p < n) (ha : act p = false) :
    amount n dep vol (fun d => if d = p then true else act d) w = amount n dep vol act w - kidVol dep vol p := by
  unfold amount
  have : ∀ d ∈ Finset.range n, (w d - if (if d = p then true else act d) then kidVol dep vol d else 0) =
      (w d - if act d then kidVol dep vol d else 0) + if d = p then - kidVol dep vol p else 0 := by
    intro d _
    by_cases h : d = p
    · subst h; simp [ha]; ring
    · simp [h]
  rw [Finset.sum_congr rfl this, Finset.sum_add_distrib, Finset.sum_ite_eq' (Finset.range n) p]
  simp [hp]; ring

variable {act : Nat → Bool} {s : FSM E}

omit [IsStrictOrderedRing E] in
theorem WaterInv.lower (V : VolOk n0 n dep vol) (I : WaterInv n0 n dep vol act s) {r : Nat} (hr : r < n)
    (h : vol r < s.water r) : WaterInv n0 n dep vol act { s with water := upd s.water r (vol r) } := by
  refine ⟨?_, ?_, ?_, ?_, I.al, I.jm⟩
  · intro d hd
    show 0 ≤ upd s.water r (vol r) d
    by_cases e : d = r
    · subst e; rw [upd_same]; exact V.nonneg d hd
    · rw [upd_ne _ _ _ e]; exact I.nn d hd
  · intro d h1 h2 h3
    change upd s.water r (vol r) d ≠ 0 at h3
    by_cases e : d = r
    · subst e
      exact I.i1 d h1 h2 (ne_of_gt (lt_of_le_of_lt (V.nonneg d h2) h))
    · rw [upd_ne _ _ _ e] at h3; exact I.i1 d h1 h2 h3
  · intro d c h1 h2
    show vol c ≤ upd s.water r (vol r) c
    by_cases e : c = r
    · subst e; rw [upd_same]
    · rw [upd_ne _ _ _ e]; exact I.i2 d c h1 h2
  · intro d h1
    show kidVol dep vol d ≤ upd s.water r (vol r) d
    by_cases e : d = r
    · subst e; rw [upd_same]
      unfold kidVol
      split
      · exact V.super _ _ _ (I.al d h1).2 ‹_› ‹_›
      · exact V.nonneg _ (I.al d h1).2
    · rw [upd_ne _ _ _ e]; exact I.i4 d h1

omit [IsStrictOrderedRing E] in
theorem WaterInv.raise (I : WaterInv n0 n dep vol act s) {r : Nat} (ho : r < n0 ∨ act r = true) {y : E}
    (h : s.water r ≤ y) : WaterInv n0 n dep vol act { s with water := upd s.water r y } := by
  have hge : ∀ d, s.water d ≤ upd s.water r y d := by
    intro d
    by_cases e : d = r
    · subst e; rw [upd_same]; exact h
    · rw [upd_ne _ _ _ e]
  refine ⟨fun d hd => (I.nn d hd).trans (hge d), ?_, fun d c h1 h2 => (I.i2 d c h1 h2).trans (hge c),
    fun d h1 => (I.i4 d h1).trans (hge d), I.al, I.jm⟩
  intro d h1 h2 h3
  change upd s.water r y d ≠ 0 at h3
  by_cases e : d = r
  · subst e; rcases ho with ho | ho
    · omega
    · exact ho
  · rw [upd_ne _ _ _ e] at h3; exact I.i1 d h1 h2 h3

omit [IsStrictOrderedRing E] in
/-- Setting a jump to an open place. -/
theorem WaterInv.jumpTo (I : WaterInv n0 n dep vol act s) (r j : Nat) (hj : j < n ∧ (j < n0 ∨ act j = true)) :
    WaterInv n0 n dep vol act { s with jump := upd s.jump r (some j) } := by
  refine ⟨I.nn, I.i1, I.i2, I.i4, I.al, ?_⟩
  intro x y h
  change upd s.jump r (some j) x = some y at h
  by_cases e : x = r
  · subst e; rw [upd_same] at h; cases h; exact hj
  · rw [upd_ne _ _ _ e] at h; exact I.jm x y h

omit [CommRing E] [IsStrictOrderedRing E] in
theorem DepTree.kids_of_up (T : DepTree n0 n dep) {x y p : Nat} (hx : upOf dep x = some p) (hy : upOf dep y = some p)
    (hne : y ≠ x) : ((dep p).lchild = some x ∧ (dep p).rchild = some y) ∨ ((dep p).lchild = some y ∧ (dep p).rchild = some x) := by
  have h1 := (T.up x p hx).2.2.2
  have h2 := (T.up y p hy).2.2.2
  rcases h1 with h1 | h1 <;> rcases h2 with h2 | h2
  · rw [h1] at h2; cases h2; exact absurd rfl hne
  · exact .inl ⟨h1, h2⟩
  · exact .inr ⟨h2, h1⟩
  · rw [h1] at h2; cases h2; exact absurd rfl hne

/-- Full children are counted in a dry parent. -/
theorem WaterInv.activate (T : DepTree n0 n dep) (I : WaterInv n0 n dep vol act s) {x y p : Nat} (hx : upOf dep x = some p)
    (hy : upOf dep y = some p) (hne : y ≠ x) (fx : s.water x = vol x) (fy : s.water y = vol y) (h0 : s.water p = 0)
    (V : VolOk n0 n dep vol) :
    ∃ act', (∀ d, act d = true → act' d = true) ∧ act' p = true ∧
      WaterInv n0 n dep vol act' { s with water := upd s.water p (s.water p + s.water x + s.water y) } ∧
      amount n dep vol act' (upd s.water p (s.water p + s.water x + s.water y)) = amount n dep vol act s.water := by
  obtain ⟨u1, u2, u3, _⟩ := T.up x p hx
  obtain ⟨v1, _, _, _⟩ := T.up y p hy
  have hkv : kidVol dep vol p = vol x + vol y := by
    unfold kidVol
    rcases T.kids_of_up hx hy hne with ⟨a, b⟩ | ⟨a, b⟩
    · rw [a, b]
    · rw [a, b, add_comm]
  have hxn := V.nonneg x (by omega)
  have hyn := V.nonneg y (by omega)
  have hval : s.water p + s.water x + s.water y = vol x + vol y := by rw [h0, fx, fy, zero_add]
  rw [hval]
  cases ha : act p with
  | true =>
    have h4 := I.i4 p ha
    rw [hkv, h0] at h4
    have hz : vol x + vol y = 0 := le_antisymm h4 (by linarith)
    have hw : upd s.water p (vol x + vol y) = s.water := by
      funext d
      by_cases e : d = p
      · subst e; rw [upd_same, hz, h0]
      · rw [upd_ne _ _ _ e]
    refine ⟨act, fun _ h => h, ha, ?_, by rw [hw]⟩
    rw [hw]; exact I
  | false =>
    refine ⟨fun d => if d = p then true else act d, ?_, by simp, ?_, ?_⟩
    · intro d hd; by_cases e : d = p <;> simp [e, hd]
    · have hne' : ∀ {z}, upOf dep z = some p → z ≠ p := fun hz => by have := (T.up _ _ hz).1; omega
      refine ⟨?_, ?_, ?_, ?_, ?_, ?_⟩
      · intro d hd
        show 0 ≤ upd s.water p (vol x + vol y) d
        by_cases e : d = p
        · subst e; rw [upd_same]; linarith
        · rw [upd_ne _ _ _ e]; exact I.nn d hd
      · intro d h1 h2 h3
        by_cases e : d = p
        · simp [e]
        · change upd s.water p (vol x + vol y) d ≠ 0 at h3
          rw [upd_ne _ _ _ e] at h3
          simp [e, I.i1 d h1 h2 h3]
      · intro d c h1 h2
        show vol c ≤ upd s.water p (vol x + vol y) c
        have hc : ∀ c, upOf dep c = some d → act d = true → vol c ≤ s.water c := fun c k1 k2 => I.i2 d c k2 k1
        by_cases ed : d = p
        · subst ed
          rw [upd_ne _ _ _ (hne' h2)]
          by_cases ex : c = x
          · subst ex; rw [fx]
          · rcases T.kids_of_up hx h2 ex with ⟨a, b⟩ | ⟨a, b⟩ <;>
              rcases T.kids_of_up hx hy hne with ⟨a', b'⟩ | ⟨a', b'⟩
            · rw [b] at b'; cases b'; rw [fy]
            · rw [a] at a'; cases a'; exact absurd rfl hne
            · rw [b] at b'; cases b'; exact absurd rfl hne
            · rw [a] at a'; cases a'; rw [fy]
        · have hd : act d = true := by simpa [ed] using h1
          by_cases ec : c = p
          · subst ec
            rw [upd_same]
            have := I.i2 d c hd h2
            rw [h0] at this
            linarith
          · rw [upd_ne _ _ _ ec]; exact I.i2 d c hd h2
      · intro d h1
        show kidVol dep vol d ≤ upd s.water p (vol x + vol y) d
        by_cases e : d = p
        · subst e; rw [upd_same, hkv]
        · rw [upd_ne _ _ _ e]
          exact I.i4 d (by simpa [e] using h1)
      · intro d h1
        by_cases e : d = p
        · subst e; exact ⟨u3, u2⟩
        · exact I.al d (by simpa [e] using h1)
      · intro r j h
        obtain ⟨k1, k2⟩ := I.jm r j h
        refine ⟨k1, k2.imp id fun k => ?_⟩
        by_cases e : j = p <;> simp [e, k]
    · rw [amount_act _ _ u2 ha, amount_upd _ _ u2, hkv, h0]; ring

/-- What a call of `OverflowInto` carrying `ex` does. -/
structure OvSpec (n0 n : Nat) (dep : Nat → Dep E) (vol : Nat → E) (eps : E) (act : Nat → Bool) (s : FSM E) (ex : E)
    (root stop : Nat) (t : Nat) (s' : FSM E) : Prop where
  ex : ∃ (act' : Nat → Bool) (lost : E), (∀ d, act d = true → act' d = true) ∧ WaterInv n0 n dep vol act' s' ∧
    (t < n ∧ (t < n0 ∨ act' t = true)) ∧ 0 ≤ lost ∧ lost ≤ eps ∧
    amount n dep vol act' s'.water + lost = amount n dep vol act s.water + ex
  over : ∀ d, d ≠ 0 → vol d < s'.water d → d = stop ∨ (vol d < s.water d ∧ d ≠ root)

/-- `pickUp` keeps the total of stored and carried water. -/
theorem pickUp_spec (V : VolOk n0 n dep vol) (I : WaterInv n0 n dep vol act s) {r : Nat} (hr : r < n) {ex : E} (hex : 0 ≤ ex) :
    WaterInv n0 n dep vol act { s with water := (pickUp vol s.water ex r).1 } ∧
    amount n dep vol act (pickUp vol s.water ex r).1 + (pickUp vol s.water ex r).2 = amount n dep vol act s.water + ex ∧
    0 ≤ (pickUp vol s.water ex r).2 ∧ (pickUp vol s.water ex r).1 r ≤ vol r ∧
    (∀ d, d ≠ r → (pickUp vol s.water ex r).1 d = s.water d) ∧
    (vol r ≤ s.water r → (pickUp vol s.water ex r).1 r = vol r) := by
  unfold pickUp
  by_cases h : vol r < s.water r
  · simp only [if_pos h]
    refine ⟨I.lower V hr h, ?_, by linarith, by rw [upd_same], fun d hd => upd_ne _ _ _ hd, fun _ => upd_same _ _ _⟩
    rw [amount_upd _ _ hr]; ring
  · simp only [if_neg h]
    exact ⟨I, trivial, hex, not_lt.1 h, fun _ _ => trivial, fun h' => le_antisymm (not_lt.1 h) h'⟩

/-- `stash` keeps the total; if water remains to be carried the depression is full. -/
theorem stash_spec (I : WaterInv n0 n dep vol act s) {r : Nat} (hr : r < n) (ho : r < n0 ∨ act r = true)
    {ex : E} (hex : 0 ≤ ex) (hle : s.water r ≤ vol r) :
    WaterInv n0 n dep vol act { s with water := (stash vol s.water ex r).1 } ∧
    amount n dep vol act (stash vol s.water ex r).1 + (stash vol s.water ex r).2 = amount n dep vol act s.water + ex ∧
    0 ≤ (stash vol s.water ex r).2 ∧ (stash vol s.water ex r).1 r ≤ vol r ∧
    (∀ d, d ≠ r → (stash vol s.water ex r).1 d = s.water d) ∧
    ((stash vol s.water ex r).2 = 0 ∨ (stash vol s.water ex r).1 r = vol r) := by
  unfold stash
  by_cases h : s.water r < vol r
  · simp only [if_pos h]
    by_cases h2 : ex < vol r - s.water r
    · simp only [if_pos h2]
      have hm : min (s.water r + ex) (vol r) = s.water r + ex := min_eq_left (by linarith)
      rw [hm]
      refine ⟨I.raise ho (by linarith), ?_, le_refl _, by rw [upd_same]; linarith, fun d hd => upd_ne _ _ _ hd, .inl trivial⟩
      rw [amount_upd _ _ hr]; ring
    · simp only [if_neg h2]
      refine ⟨I.raise ho h.le, ?_, by linarith, by rw [upd_same], fun d hd => upd_ne _ _ _ hd, .inr (upd_same _ _ _)⟩
      rw [amount_upd _ _ hr]; ring
  · simp only [if_neg h]
    exact ⟨I, trivial, hex, hle, fun _ _ => trivial, .inr (le_antisymm hle (not_lt.1 h))⟩

/-- The outcome of a call satisfies `P` if it is a result and is not a failure. -/
def FRes.Sat {α : Type} (P : α → Prop) : FRes α → Prop
  | .ok a => P a
  | .fail => False
  | .deep => True

omit [IsStrictOrderedRing E] in
/-- Recording the jump after a nested call. -/
theorem setJump_sat {root stop : Nat} {s0 s1 : FSM E} {ex0 ex1 : E} {act0 act1 : Nat → Bool} {r1 : Nat}
    {res : FRes (Nat × FSM E)}
    (hr : res.Sat fun x => OvSpec n0 n dep vol eps act1 s1 ex1 r1 stop x.1 x.2)
    (hact : ∀ d, act0 d = true → act1 d = true)
    (hamt : amount n dep vol act1 s1.water + ex1 = amount n dep vol act0 s0.water + ex0)
    (hov : ∀ d, d ≠ 0 → vol d < s1.water d → (vol d < s0.water d ∧ d ≠ root)) :
    (res.bind (setJump root)).Sat fun x => OvSpec n0 n dep vol eps act0 s0 ex0 root stop x.1 x.2 := by
  cases res with
  | fail => exact hr
  | deep => trivial
  | ok x =>
    obtain ⟨⟨act', lost, k1, k2, k3, k4, k5, k6⟩, ho⟩ := hr
    refine ⟨⟨act', lost, fun d hd => k1 d (hact d hd), k2.jumpTo root x.1 k3, k3, k4, k5, ?_⟩, ?_⟩
    · show amount n dep vol act' x.2.water + lost = _
      rw [k6, hamt]
    · intro d h0 hd
      rcases ho d h0 hd with h | ⟨h, _⟩
      · exact .inl h
      · exact .inr (hov d h0 h)

/-- `OverflowInto` never fails and loses less than the tolerance. -/
theorem overflowInto_spec (T : FlowTree n0 n dep) (V : VolOk n0 n dep vol) (he : 0 < eps) :
    ∀ (f root stop : Nat) (s : FSM E) (ex : E) (act : Nat → Bool), WaterInv n0 n dep vol act s → root < n →
      (root < n0 ∨ act root = true) → 0 ≤ ex →
      (overflowInto n dep vol eps f root stop s ex).Sat
        fun x => OvSpec n0 n dep vol eps act s ex root stop x.1 x.2 := by
  intro f
  induction f with
  | zero => intros; trivial
  | succ f ih =>
    intro root stop s ex act I hr ho hex
    obtain ⟨I1, a1, e1, l1, o1, _⟩ := pickUp_spec V I hr hex
    unfold overflowInto
    simp only [hr, not_true, if_false]
    set w1 := (pickUp vol s.water ex root).1 with hw1
    set ex1 := (pickUp vol s.water ex root).2 with hex1
    by_cases hstop : root = stop ∨ root = 0
    · rw [if_pos hstop]
      refine ⟨⟨act, 0, fun _ h => h, I1.raise ho (by linarith), ⟨hr, ho⟩, le_refl _, he.le, ?_⟩, ?_⟩
      · show amount n dep vol act (upd w1 root (w1 root + ex1)) + 0 = _
        rw [amount_upd _ _ hr, ← a1]; ring
      · intro d h0 hd
        change vol d < upd w1 root (w1 root + ex1) d at hd
        by_cases e : d = root
        · subst e
          rcases hstop with h | h
          · exact .inl h
          · exact absurd h h0
        · rw [upd_ne _ _ _ e, o1 d e] at hd
          exact .inr ⟨hd, e⟩
    · rw [if_neg hstop]
      have hr0 : root ≠ 0 := fun h => hstop (.inr h)
      obtain ⟨I2, a2, e2, l2, o2, f2⟩ := stash_spec I1 hr ho e1 l1
      change WaterInv n0 n dep vol act { s with water := (stash vol w1 ex1 root).1 } at I2
      change amount n dep vol act (stash vol w1 ex1 root).1 + (stash vol w1 ex1 root).2 = amount n dep vol act w1 + ex1 at a2
      change 0 ≤ (stash vol w1 ex1 root).2 at e2
      change (stash vol w1 ex1 root).1 root ≤ vol root at l2
      change ∀ d, d ≠ root → (stash vol w1 ex1 root).1 d = w1 d at o2
      change (stash vol w1 ex1 root).2 = 0 ∨ (stash vol w1 ex1 root).1 root = vol root at f2
      set w2 := (stash vol w1 ex1 root).1 with hw2
      set ex2 := (stash vol w1 ex1 root).2 with hex2
      have hov2 : ∀ d, d ≠ 0 → vol d < w2 d → vol d < s.water d ∧ d ≠ root := by
        intro d _ hd
        by_cases e : d = root
        · subst e; exact absurd l2 (not_le.2 hd)
        · rw [o2 d e, o1 d e] at hd; exact ⟨hd, e⟩
      have hamt2 : amount n dep vol act w2 + ex2 = amount n dep vol act s.water + ex := by rw [a2, a1]
      by_cases hz : -eps < ex2 ∧ ex2 < eps
      · rw [if_pos hz]
        exact ⟨⟨act, ex2, fun _ h => h, I2, ⟨hr, ho⟩, e2, hz.2.le, hamt2⟩, fun d h0 hd => .inr (hov2 d h0 hd)⟩
      · rw [if_neg hz]
        have hfull : w2 root = vol root := by
          rcases f2 with h | h
          · exact absurd ⟨by rw [h]; linarith, by rw [h]; exact he⟩ hz
          · exact h
        -- climbing to the parent
        have hclimb : ∀ (w : Nat → E) (x : E), WaterInv n0 n dep vol act { s with water := w } → 0 ≤ x →
            amount n dep vol act w + x = amount n dep vol act s.water + ex →
            (∀ d, d ≠ 0 → vol d < w d → vol d < s.water d ∧ d ≠ root) → w root = vol root →
            (∀ b, (dep root).odep = some b → w b = vol b) →
            FRes.Sat (fun x => OvSpec n0 n dep vol eps act s ex root stop x.1 x.2)
              (match (dep root).parent with
              | none => FRes.fail
              | some p =>
                if ¬ p < n then FRes.fail
                else (overflowInto n dep vol eps f p stop { s with water := tellParent dep w root p } x).bind
                  (setJump root)) := by
          intro w x Iw hx hamt hov hwr hwb
          cases hp : (dep root).parent with
          | none => exact absurd hp (T.par root hr hr0)
          | some p =>
            cases hop : (dep root).oceanParent with
            | true =>
              obtain ⟨_, q2, _, _⟩ := T.ocp root p hp hop
              have hpn : p < n := lt_of_lt_of_le q2 T.le
              have ht : tellParent dep w root p = w := by unfold tellParent; simp [hop]
              simp only [hpn, not_true, if_false, ht]
              exact setJump_sat (ih p stop _ x act Iw hpn (.inl q2) hx) (fun _ h => h) hamt hov
            | false =>
              have hup : upOf dep root = some p := by unfold upOf; simp [hop, hp]
              obtain ⟨b, g, b1, b2, b3, _, _⟩ := T.od root p hup
              obtain ⟨_, hpn, hpn0, _⟩ := T.up root p hup
              simp only [hpn, not_true, if_false]
              by_cases hw0 : w p = 0
              · have ht : tellParent dep w root p = upd w p (w p + w root + w b) := by
                  unfold tellParent; simp [hop, hw0, b1]
                rw [ht]
                obtain ⟨act', c1, c2, c3, c4⟩ := Iw.activate T.toDepTree hup b2 b3 hwr (hwb b b1) hw0 V
                refine setJump_sat (ih p stop _ x act' c3 hpn (.inr c2) hx) c1 ?_ ?_
                · show amount n dep vol act' (upd w p (w p + w root + w b)) + x = _
                  rw [← hamt]
                  congr 1
                · intro d h0 hd
                  change vol d < upd w p (w p + w root + w b) d at hd
                  by_cases e : d = p
                  · exfalso
                    subst e
                    rw [upd_same, hw0, hwr, hwb b b1, zero_add] at hd
                    have : vol root + vol b ≤ vol d := by
                      rcases T.toDepTree.kids_of_up hup b2 b3 with ⟨q1, q2⟩ | ⟨q1, q2⟩
                      · exact V.super d _ _ hpn q1 q2
                      · rw [add_comm]; exact V.super d _ _ hpn q1 q2
                    linarith
                  · rw [upd_ne _ _ _ e] at hd; exact hov d h0 hd
              · have ht : tellParent dep w root p = w := by unfold tellParent; simp [hw0]
                rw [ht]
                exact setJump_sat (ih p stop _ x act Iw hpn (.inr (Iw.i1 p hpn0 hpn hw0)) hx) (fun _ h => h) hamt hov
        cases hj : s.jump root with
        | some j =>
          obtain ⟨j1, j2⟩ := I.jm root j hj
          exact setJump_sat (ih j stop _ ex2 act I2 j1 j2 e2) (fun _ h => h) hamt2 hov2
        | none =>
          cases hod : (dep root).odep with
          | none =>
            exact hclimb w2 ex2 I2 e2 hamt2 hov2 hfull (by intro b hb; rw [hod] at hb; cases hb)
          | some b =>
            have hup : ∃ p, upOf dep root = some p := by
              cases hp : (dep root).parent with
              | none => exact absurd hp (T.par root hr hr0)
              | some p =>
                cases hop : (dep root).oceanParent with
                | true => have := (T.ocp root p hp hop).2.2.1; rw [hod] at this; cases this
                | false => exact ⟨p, by unfold upOf; simp [hop, hp]⟩
            obtain ⟨p, hup⟩ := hup
            obtain ⟨b', g, b1, b2, b3, b4, b5, _⟩ := T.od root p hup
            rw [hod] at b1; cases b1
            have hbn : b < n := by obtain ⟨q1, q2, _⟩ := T.up b p b2; omega
            have hgn : g < n := lt_of_lt_of_le b5 T.le
            simp only [hbn, not_true, if_false]
            by_cases hlt : w2 b < vol b
            · rw [if_pos hlt, b4]
              exact setJump_sat (ih g stop _ ex2 act I2 hgn (.inl b5) e2) (fun _ h => h) hamt2 hov2
            · rw [if_neg hlt]
              obtain ⟨I3, a3, e3, l3, o3, f3⟩ := pickUp_spec V I2 hbn e2
              refine hclimb _ _ I3 e3 (by rw [← hamt2]; exact a3) ?_ ?_ ?_
              · intro d h0 hd
                by_cases e : d = b
                · subst e; exact absurd l3 (not_le.2 hd)
                · rw [o3 d e] at hd; exact hov2 d h0 hd
              · rw [o3 root (Ne.symm b3)]; exact hfull
              · intro b' hb'; rw [hod] at hb'; cases hb'
                exact f3 (not_lt.1 hlt)

/-- No depression lies on a cycle of parents. -/
theorem no_cycle {up : Nat → Option Nat} (h0 : up 0 = none) {d : Nat} (hd : AncU up d 0) :
    ∀ y, up y = some d → AncU up d y → False := by
  generalize hz : (0 : Nat) = z at hd
  induction hd with
  | refl =>
    subst hz
    intro y h1 h2
    have := h2.top h0
    subst this
    rw [h0] at h1; cases h1
  | @step d p x h _ ih =>
    intro y h1 h2
    cases h2 with
    | refl =>
      rw [h] at h1; cases h1
      exact ih hz d h (.refl _)
    | @step _ p' _ h' k =>
      rw [h] at h'; cases h'
      exact ih hz d h (k.trans (.step h1 (.refl _)))

/-- `x` is visited by the call for `d`: parents lead from `x` to `d`. -/
def Under (dep : Nat → Dep E) (x d : Nat) : Prop := AncU (fun y => (dep y).parent) x d

open Classical in
/-- The depressions visited by the call for `d`. -/
noncomputable def underSet (n : Nat) (dep : Nat → Dep E) (d : Nat) : Finset Nat :=
  (Finset.range n).filter (fun x => Under dep x d)

omit [CommRing E] [LinearOrder E] [IsStrictOrderedRing E] in
theorem mem_underSet {x d : Nat} : x ∈ underSet n dep d ↔ x < n ∧ Under dep x d := by
  unfold underSet; simp

/-- What a call of `MoveWaterInDepHier` for a set `D` of depressions below `d` does. -/
def MvSpec (n0 n : Nat) (dep : Nat → Dep E) (vol : Nat → E) (eps : E) (act : Nat → Bool) (s : FSM E)
    (p : Nat) (D : Finset Nat) (s' : FSM E) : Prop :=
  ∃ (act' : Nat → Bool) (lost : E), (∀ d, act d = true → act' d = true) ∧ WaterInv n0 n dep vol act' s' ∧
    0 ≤ lost ∧ lost ≤ eps * D.card ∧
    amount n dep vol act' s'.water + lost = amount n dep vol act s.water ∧
    ∀ x, x ≠ 0 → vol x < s'.water x → x = p ∨ (vol x < s.water x ∧ x ∉ D)

omit [CommRing E] [IsStrictOrderedRing E] in
/-- The calls made for `d` are for the depressions whose parent is `d`. -/
theorem FlowTree.calls (T : FlowTree n0 n dep) {d : Nat} (hd : d < n) :
    ((dep d).oceanLinked ++ (dep d).lchild.toList ++ (dep d).rchild.toList).Nodup ∧
    ∀ c, c ∈ (dep d).oceanLinked ++ (dep d).lchild.toList ++ (dep d).rchild.toList ↔
      c < n ∧ (dep c).parent = some d := by
  have hup : ∀ c, upOf dep c = some d → (dep c).parent = some d ∧ (dep c).oceanParent = false := by
    intro c h
    unfold upOf at h
    split at h
    · cases h
    · rename_i k; exact ⟨h, by simpa using k⟩
  have hkid : ∀ c, ((dep d).lchild = some c ∨ (dep d).rchild = some c) → upOf dep c = some d := by
    intro c hc
    by_cases hdn : d < n0
    · have := T.leaf d hdn
      rcases hc with hc | hc
      · rw [this.1] at hc; cases hc
      · rw [this.2] at hc; cases hc
    · obtain ⟨a, b, k1, k2, _, _, _, _, _, k8, k9, _⟩ := T.kids d (by omega) hd
      rcases hc with hc | hc
      · rw [k1] at hc; cases hc; exact k8
      · rw [k2] at hc; cases hc; exact k9
  have hne : ∀ a b, (dep d).lchild = some a → (dep d).rchild = some b → a ≠ b := by
    intro a b ha hb
    by_cases hdn : d < n0
    · have := T.leaf d hdn
      rw [this.1] at ha; cases ha
    · obtain ⟨a', b', k1, k2, k3, _⟩ := T.kids d (by omega) hd
      rw [ha] at k1; cases k1
      rw [hb] at k2; cases k2
      exact k3
  constructor
  · refine List.nodup_append.2 ⟨List.nodup_append.2 ⟨T.nd d, ?_, ?_⟩, ?_, ?_⟩
    · cases (dep d).lchild <;> simp
    · intro x hx y hy
      have hy' : (dep d).lchild = some y := by simpa using hy
      have h1 := T.lk d x hx
      have h2 := hup y (hkid y (.inl hy'))
      rintro rfl
      rw [h1.2] at h2; cases h2.2
    · cases (dep d).rchild <;> simp
    · intro x hx y hy
      have hy' : (dep d).rchild = some y := by simpa using hy
      have h2 := hup y (hkid y (.inr hy'))
      rintro rfl
      rcases List.mem_append.1 hx with hx | hx
      · have h1 := T.lk d x hx
        rw [h1.2] at h2; cases h2.2
      · exact hne x x (by simpa using hx) hy' rfl
  · intro c
    simp only [List.mem_append, Option.mem_toList, Option.mem_def]
    constructor
    · rintro ((h | h) | h)
      · have := T.lk d c h
        exact ⟨(T.ocp c d this.1 this.2).1, this.1⟩
      · have := hkid c (.inl h)
        obtain ⟨q1, q2, _⟩ := T.up c d this
        exact ⟨by omega, (hup c this).1⟩
      · have := hkid c (.inr h)
        obtain ⟨q1, q2, _⟩ := T.up c d this
        exact ⟨by omega, (hup c this).1⟩
    · rintro ⟨h1, h2⟩
      cases ho : (dep c).oceanParent with
      | true => exact .inl (.inl (T.ocp c d h2 ho).2.2.2)
      | false =>
        have : upOf dep c = some d := by unfold upOf; simp [ho, h2]
        rcases (T.up c d this).2.2.2 with h | h
        · exact .inl (.inr h)
        · exact .inr h

omit [CommRing E] [IsStrictOrderedRing E] in
/-- The visits for different children are different. -/
theorem FlowTree.under_disjoint (T : FlowTree n0 n dep) {d a b : Nat} (hd : d < n) (ha : (dep a).parent = some d)
    (hb : (dep b).parent = some d) (hne : a ≠ b) : Disjoint (underSet n dep a) (underSet n dep b) := by
  rw [Finset.disjoint_left]
  intro x h1 h2
  rw [mem_underSet] at h1 h2
  have key : ∀ a b, (dep a).parent = some d → (dep b).parent = some d → a ≠ b → ¬ Under dep a b := by
    intro a b ha hb hne h
    cases h with
    | refl => exact hne rfl
    | @step _ p _ h' k =>
      change (dep a).parent = some p at h'
      rw [ha] at h'; cases h'
      exact no_cycle (up := fun y => (dep y).parent) T.ocean (T.reach d hd) b hb k
  rcases AncU.chain h1.2 h2.2 with h | h
  · exact key a b ha hb hne h
  · exact key b a hb ha (Ne.symm hne) h

/-- A list of calls. -/
theorem moves_spec (T : FlowTree n0 n dep) (he : 0 < eps) {call : Nat → FSM E → FRes (FSM E)} {d : Nat} (hd : d < n)
    (hcall : ∀ c s act, c < n → (dep c).parent = some d → WaterInv n0 n dep vol act s →
      (call c s).Sat (MvSpec n0 n dep vol eps act s d (underSet n dep c))) :
    ∀ (cs : List Nat), cs.Nodup → (∀ c ∈ cs, c < n ∧ (dep c).parent = some d) → ∀ s act, WaterInv n0 n dep vol act s →
      (cs.foldl (fun (r : FRes (FSM E)) c => r.bind (call c)) (.ok s)).Sat
        (MvSpec n0 n dep vol eps act s d (cs.toFinset.biUnion (underSet n dep))) := by
  intro cs
  induction cs using List.reverseRecOn with
  | nil =>
    intro _ _ s act I
    refine ⟨act, 0, fun _ h => h, I, le_refl _, by simp, by simp, ?_⟩
    intro x _ hx; exact .inr ⟨hx, by simp⟩
  | append_singleton cs c ih =>
    intro hnd hcs s act I
    rw [List.foldl_append]
    have hnd' := List.nodup_append.1 hnd
    have h1 := ih hnd'.1 (fun x hx => hcs x (by simp [hx])) s act I
    show FRes.Sat _ ((cs.foldl (fun (r : FRes (FSM E)) c => r.bind (call c)) (.ok s)).bind (call c))
    cases hres : cs.foldl (fun (r : FRes (FSM E)) c => r.bind (call c)) (.ok s) with
    | fail => rw [hres] at h1; exact h1
    | deep => trivial
    | ok s1 =>
      rw [hres] at h1
      obtain ⟨act1, lost1, a1, a2, a3, a4, a5, a6⟩ := h1
      obtain ⟨hc1, hc2⟩ := hcs c (by simp)
      have h2 := hcall c s1 act1 hc1 hc2 a2
      show FRes.Sat _ (call c s1)
      cases hr2 : call c s1 with
      | fail => rw [hr2] at h2; exact h2
      | deep => trivial
      | ok s2 =>
        rw [hr2] at h2
        obtain ⟨act2, lost2, b1, b2, b3, b4, b5, b6⟩ := h2
        have hU : (cs ++ [c]).toFinset.biUnion (underSet n dep) =
            cs.toFinset.biUnion (underSet n dep) ∪ underSet n dep c := by
          ext x
          simp only [Finset.mem_biUnion, List.mem_toFinset, List.mem_append, List.mem_singleton, Finset.mem_union]
          constructor
          · rintro ⟨y, hy | rfl, hx⟩
            · exact .inl ⟨y, hy, hx⟩
            · exact .inr hx
          · rintro (⟨y, hy, hx⟩ | hx)
            · exact ⟨y, .inl hy, hx⟩
            · exact ⟨c, .inr rfl, hx⟩
        have hdis : Disjoint (cs.toFinset.biUnion (underSet n dep)) (underSet n dep c) := by
          rw [Finset.disjoint_biUnion_left]
          intro y hy
          rw [List.mem_toFinset] at hy
          refine T.under_disjoint hd (hcs y (by simp [hy])).2 hc2 ?_
          exact hnd'.2.2 y hy c (by simp)
        refine ⟨act2, lost1 + lost2, fun x hx => b1 x (a1 x hx), b2, by linarith, ?_, by rw [← a5, ← b5]; ring, ?_⟩
        · rw [hU, Finset.card_union_of_disjoint hdis]
          push_cast
          rw [mul_add]; linarith
        · intro x h0 hx
          rcases b6 x h0 hx with h | ⟨h, h'⟩
          · exact .inl h
          · rcases a6 x h0 h with k | ⟨k, k'⟩
            · exact .inl k
            · exact .inr ⟨k, by rw [hU, Finset.mem_union]; rintro (q | q); exacts [k' q, h' q]⟩

/-- `MoveWaterInDepHier` for one depression: no assertion fails, all water is accounted for, and
afterwards nothing visited holds more than its volume. -/
theorem moveWater_spec (T : FlowTree n0 n dep) (V : VolOk n0 n dep vol) (he : 0 < eps) :
    ∀ (f d p : Nat) (s : FSM E) (act : Nat → Bool), d < n → d ≠ 0 → (dep d).parent = some p →
      WaterInv n0 n dep vol act s →
      (moveWater n dep vol eps f d s).Sat (MvSpec n0 n dep vol eps act s p (underSet n dep d)) := by
  intro f
  induction f with
  | zero => intros; trivial
  | succ f ih =>
    intro d p s act hd hd0 hp I
    unfold moveWater
    simp only [hd, not_true, if_false]
    obtain ⟨hnd, hmem⟩ := T.calls hd
    have hne0 : ∀ c, (dep c).parent = some d → c ≠ 0 := by
      rintro c hc rfl; rw [T.ocean] at hc; cases hc
    have h1 := moves_spec T he hd (fun c s act hc hpc I => ih c d s act hc (hne0 c hpc) hpc I) _ hnd
      (fun c hc => (hmem c).1 hc) s act I
    set cs := (dep d).oceanLinked ++ (dep d).lchild.toList ++ (dep d).rchild.toList with hcs
    have hU : underSet n dep d = cs.toFinset.biUnion (underSet n dep) ∪ {d} := by
      ext x
      simp only [mem_underSet, Finset.mem_union, Finset.mem_biUnion, List.mem_toFinset, Finset.mem_singleton]
      constructor
      · rintro ⟨hx, hu⟩
        rcases AncU.last hu with h | ⟨k, k1, k2⟩
        · exact .inr h
        · have hk : k < n := by
            rcases AncU.last k1 with rfl | ⟨m, _, m2⟩
            · exact hx
            · by_contra hcon
              change (dep m).parent = some k at m2
              change (dep k).parent = some d at k2
              cases ho : (dep m).oceanParent with
              | true => have := (T.ocp m k m2 ho).2.1; have := T.le; omega
              | false => exact hcon (T.up m k (by unfold upOf; simp [ho, m2])).2.1
          exact .inl ⟨k, (hmem k).2 ⟨hk, k2⟩, hx, k1⟩
      · rintro (⟨k, k1, hx, k2⟩ | rfl)
        · exact ⟨hx, AncU.trans k2 (.step ((hmem k).1 k1).2 (.refl _))⟩
        · exact ⟨hd, .refl _⟩
    have hdnot : d ∉ cs.toFinset.biUnion (underSet n dep) := by
      simp only [Finset.mem_biUnion, List.mem_toFinset, not_exists, not_and, mem_underSet]
      intro k hk hdn hu
      exact no_cycle (up := fun y => (dep y).parent) T.ocean (T.reach d hd) k ((hmem k).1 hk).2 hu
    have hcard : ((underSet n dep d).card : E) = (cs.toFinset.biUnion (underSet n dep)).card + 1 := by
      rw [hU, Finset.card_union_of_disjoint (by simpa using hdnot)]; simp
    cases hres : cs.foldl (fun (r : FRes (FSM E)) c => r.bind (moveWater n dep vol eps f c)) (.ok s) with
    | fail => rw [hres] at h1; exact h1
    | deep => trivial
    | ok s1 =>
      rw [hres] at h1
      obtain ⟨act1, lost1, a1, I1, a3, a4, a5, a6⟩ := h1
      show FRes.Sat _ (if d = 0 then _ else _)
      rw [if_neg hd0]
      -- full children of a dry depression
      obtain ⟨act2, b1, I2, b3, b4, b5⟩ : ∃ act2, (∀ x, act1 x = true → act2 x = true) ∧
          WaterInv n0 n dep vol act2 { s1 with water := fillFromKids dep vol s1.water d } ∧
          amount n dep vol act2 (fillFromKids dep vol s1.water d) = amount n dep vol act1 s1.water ∧
          (∀ x, x ≠ d → fillFromKids dep vol s1.water d x = s1.water x) ∧ True := by
        unfold fillFromKids
        cases hl : (dep d).lchild with
        | none => exact ⟨act1, fun _ h => h, I1, rfl, fun _ _ => rfl, trivial⟩
        | some a =>
          cases hr : (dep d).rchild with
          | none => exact ⟨act1, fun _ h => h, I1, rfl, fun _ _ => rfl, trivial⟩
          | some b =>
            by_cases hc : s1.water a = vol a ∧ s1.water b = vol b ∧ s1.water d = 0
            · simp only [if_pos hc]
              have hdn : n0 ≤ d := by
                by_contra hlt
                have := (T.leaf d (by omega)).1
                rw [hl] at this; cases this
              obtain ⟨a', b', k1, k2, k3, _, _, _, _, k8, k9, _⟩ := T.kids d hdn hd
              rw [hl] at k1; cases k1
              rw [hr] at k2; cases k2
              obtain ⟨act', c1, c2, c3, c4⟩ := I1.activate T.toDepTree k8 k9 (Ne.symm k3) hc.1 hc.2.1 hc.2.2 V
              rw [add_assoc] at c3 c4
              exact ⟨act', c1, c3, c4, fun x hx => upd_ne _ _ _ hx, trivial⟩
            · simp only [if_neg hc]
              exact ⟨act1, fun _ h => h, I1, rfl, fun _ _ => trivial, trivial⟩
      set w := fillFromKids dep vol s1.water d with hw
      by_cases hover : vol d < w d
      · rw [if_pos hover]
        have hwpos : w d ≠ 0 := ne_of_gt (lt_of_le_of_lt (V.nonneg d hd) hover)
        have hopen : d < n0 ∨ act2 d = true := by
          by_cases h : d < n0
          · exact .inl h
          · exact .inr (I2.i1 d (by omega) hd hwpos)
        have hkid : ∀ c, ((dep d).lchild = some c ∨ (dep d).rchild = some c) → w c = vol c := by
          intro c hc
          have hdn : n0 ≤ d := by
            by_contra hlt
            have := T.leaf d (by omega)
            rw [this.1, this.2] at hc
            rcases hc with hc | hc <;> cases hc
          have hact : act2 d = true := I2.i1 d hdn hd hwpos
          have hcm : c ∈ cs := by
            rw [hcs]; simp only [List.mem_append, Option.mem_toList, Option.mem_def]
            rcases hc with hc | hc
            · exact .inl (.inr hc)
            · exact .inr hc
          obtain ⟨c1, c2⟩ := (hmem c).1 hcm
          have huc : upOf dep c = some d := by
            obtain ⟨a', b', k1, k2, _, _, _, _, _, k8, k9, _⟩ := T.kids d hdn hd
            rcases hc with hc | hc
            · rw [k1] at hc; cases hc; exact k8
            · rw [k2] at hc; cases hc; exact k9
          have hcd : c ≠ d := by have := (T.up c d huc).1; omega
          refine le_antisymm ?_ (I2.i2 d c hact huc)
          by_contra hcon
          rw [not_le, b4 c hcd] at hcon
          rcases a6 c (hne0 c c2) hcon with h | ⟨_, h⟩
          · exact hcd h
          · exact h (Finset.mem_biUnion.2 ⟨c, by simpa using hcm, mem_underSet.2 ⟨c1, .refl _⟩⟩)
        have hkf : kidsFull dep vol w d = true := by
          unfold kidsFull
          cases hl : (dep d).lchild with
          | none =>
            cases hr : (dep d).rchild with
            | none => rfl
            | some b => simpa using hkid b (.inr hr)
          | some a =>
            cases hr : (dep d).rchild with
            | none => simpa using hkid a (.inl hl)
            | some b => simpa using ⟨hkid a (.inl hl), hkid b (.inr hr)⟩
        simp only [hkf, not_true, if_false, hp]
        have hov := overflowInto_spec T V he f d p { s1 with water := w } 0 act2 I2 hd hopen (le_refl _)
        cases hr : overflowInto n dep vol eps f d p { s1 with water := w } 0 with
        | fail => rw [hr] at hov; exact hov
        | deep => trivial
        | ok x =>
          rw [hr] at hov
          obtain ⟨⟨act3, lost2, c1, c2, c3, c4, c5, c6⟩, c7⟩ := hov
          have hpd : d ≠ p := by
            rintro rfl
            exact no_cycle (up := fun y => (dep y).parent) T.ocean (T.reach d hd) d hp (.refl _)
          have hle : x.2.water d ≤ vol d := by
            by_contra hcon
            rcases c7 d hd0 (not_le.1 hcon) with h | ⟨_, h⟩
            · exact hpd h
            · exact h rfl
          show FRes.Sat _ (if x.2.water d ≤ vol d then _ else _)
          rw [if_pos hle]
          refine ⟨act3, lost1 + lost2, fun y hy => c1 y (b1 y (a1 y hy)), c2, by linarith, ?_, ?_, ?_⟩
          · rw [hcard, mul_add]; linarith
          · have : amount n dep vol act2 w = amount n dep vol act1 s1.water := b3
            change amount n dep vol act3 x.2.water + lost2 = amount n dep vol act2 w + 0 at c6
            linarith
          · intro y h0 hy
            rcases c7 y h0 hy with h | ⟨h, h'⟩
            · exact .inl h
            · change vol y < w y at h
              rw [b4 y h'] at h
              rcases a6 y h0 h with k | ⟨k, k'⟩
              · exact absurd k h'
              · refine .inr ⟨k, ?_⟩
                rw [hU, Finset.mem_union, Finset.mem_singleton]
                rintro (q | q)
                · exact k' q
                · exact h' q
      · rw [if_neg hover]
        refine ⟨act2, lost1, fun y hy => b1 y (a1 y hy), I2, a3, ?_, ?_, ?_⟩
        · rw [hcard, mul_add]; linarith
        · show amount n dep vol act2 w + lost1 = _
          rw [b3]; exact a5
        · intro y h0 hy
          change vol y < w y at hy
          by_cases e : y = d
          · subst e; exact absurd hy hover
          · rw [b4 y e] at hy
            rcases a6 y h0 hy with k | ⟨k, k'⟩
            · exact absurd k e
            · refine .inr ⟨k, ?_⟩
              rw [hU, Finset.mem_union, Finset.mem_singleton]
              rintro (q | q)
              · exact k' q
              · exact e q

/-- The call for the ocean. -/
theorem moveWater_ocean (T : FlowTree n0 n dep) (V : VolOk n0 n dep vol) (he : 0 < eps) (f : Nat) (s : FSM E)
    (act : Nat → Bool) (I : WaterInv n0 n dep vol act s) :
    (moveWater n dep vol eps f 0 s).Sat fun s' => ∃ (act' : Nat → Bool) (lost : E),
      WaterInv n0 n dep vol act' s' ∧ 0 ≤ lost ∧ lost ≤ eps * n ∧
      amount n dep vol act' s'.water + lost = amount n dep vol act s.water ∧
      ∀ x, x < n → x ≠ 0 → s'.water x ≤ vol x := by
  cases f with
  | zero => trivial
  | succ f =>
    have hn : 0 < n := by have := T.pos; have := T.le; omega
    unfold moveWater
    simp only [hn, not_true, if_false]
    obtain ⟨hnd, hmem⟩ := T.calls hn
    have hne0 : ∀ c, (dep c).parent = some 0 → c ≠ 0 := by
      rintro c hc rfl; rw [T.ocean] at hc; cases hc
    have h1 := moves_spec T he hn (fun c s act hc hpc I => moveWater_spec T V he f c 0 s act hc (hne0 c hpc) hpc I) _ hnd
      (fun c hc => (hmem c).1 hc) s act I
    set cs := (dep 0).oceanLinked ++ (dep 0).lchild.toList ++ (dep 0).rchild.toList with hcs
    cases hres : cs.foldl (fun (r : FRes (FSM E)) c => r.bind (moveWater n dep vol eps f c)) (.ok s) with
    | fail => rw [hres] at h1; exact h1
    | deep => trivial
    | ok s1 =>
      rw [hres] at h1
      obtain ⟨act1, lost1, a1, I1, a3, a4, a5, a6⟩ := h1
      show FRes.Sat _ (FRes.ok s1)
      refine ⟨act1, lost1, I1, a3, ?_, a5, ?_⟩
      · refine a4.trans (mul_le_mul_of_nonneg_left ?_ he.le)
        have hsub : cs.toFinset.biUnion (underSet n dep) ⊆ Finset.range n := by
          intro x hx
          obtain ⟨c, _, hx⟩ := Finset.mem_biUnion.1 hx
          exact Finset.mem_range.2 (mem_underSet.1 hx).1
        have := Finset.card_le_card hsub
        rw [Finset.card_range] at this
        exact_mod_cast this
      · intro x hx h0
        by_contra hcon
        rcases a6 x h0 (not_le.1 hcon) with h | ⟨_, h⟩
        · exact h0 h
        · apply h
          rcases AncU.last (T.reach x hx) with h' | ⟨k, k1, k2⟩
          · exact absurd h' h0
          · change (dep k).parent = some 0 at k2
            have hk : k < n := by
              cases ho : (dep k).oceanParent with
              | true => exact (T.ocp k 0 k2 ho).1
              | false =>
                have := T.up k 0 (by unfold upOf; simp [ho, k2])
                have := T.pos
                omega
            exact Finset.mem_biUnion.2 ⟨k, List.mem_toFinset.2 ((hmem k).2 ⟨hk, k2⟩), mem_underSet.2 ⟨hx, k1⟩⟩

/-! ## What the hierarchy holds -/

/-- The water in a depression as documented at fill_spill_merge.hpp:419-427: `water_vol` is the water
of the depression and its children; a metadepression with `water_vol == 0` has received nothing
and its children hold their own.  At most `f` levels. -/
def content (dep : Nat → Dep E) (w : Nat → E) : Nat → Nat → E
  | 0, _ => 0
  | f + 1, d =>
    match (dep d).lchild, (dep d).rchild with
    | some a, some b => if w d = 0 then content dep w f a + content dep w f b else w d
    | _, _ => w d

/-- All water: the ocean's and that of the topmost depressions. -/
def held (n : Nat) (dep : Nat → Dep E) (w : Nat → E) : E :=
  w 0 + ((Finset.range n).filter (fun d => d ≠ 0 ∧ (dep d).oceanParent = true)).sum (content dep w n)

omit [IsStrictOrderedRing E] in
theorem content_leaf (T : DepTree n0 n dep) (w : Nat → E) {f d : Nat} (hd : d < n0) :
    content dep w (f + 1) d = w d := by
  unfold content; rw [(T.leaf d hd).1]

omit [IsStrictOrderedRing E] in
theorem content_fuel (T : DepTree n0 n dep) (w : Nat → E) : ∀ (d f g : Nat), d < n → d < f → d < g →
    content dep w f d = content dep w g d := by
  intro d
  induction d using Nat.strongRecOn with
  | _ d ih =>
    intro f g hd hf hg
    cases f with
    | zero => omega
    | succ f =>
      cases g with
      | zero => omega
      | succ g =>
        by_cases hl : d < n0
        · rw [content_leaf T w hl, content_leaf T w hl]
        · obtain ⟨a, b, k1, k2, _, k4, k5, _⟩ := T.kids d (by omega) hd
          unfold content
          simp only [k1, k2]
          rw [ih a k4 f g (by omega) (by omega) (by omega), ih b k5 f g (by omega) (by omega) (by omega)]

omit [IsStrictOrderedRing E] in
theorem content_meta (T : DepTree n0 n dep) (w : Nat → E) {d a b : Nat} (hd : d < n)
    (ha : (dep d).lchild = some a) (hb : (dep d).rchild = some b) (hal : a < d) (hbl : b < d) :
    content dep w n d = if w d = 0 then content dep w n a + content dep w n b else w d := by
  have e := content_fuel T w d n (n + 1) hd hd (by omega)
  rw [e]
  conv_lhs => unfold content
  simp only [ha, hb]

theorem content_zero (T : DepTree n0 n dep) (V : VolOk n0 n dep vol) {w : Nat → E} (hnn : ∀ d, d < n → 0 ≤ w d)
    (hle : ∀ d, d < n → d ≠ 0 → w d ≤ vol d) : ∀ d, d < n → d ≠ 0 → vol d = 0 → content dep w n d = 0 := by
  intro d
  induction d using Nat.strongRecOn with
  | _ d ih =>
    intro hd h0 hv
    have hw : w d = 0 := le_antisymm (by rw [← hv]; exact hle d hd h0) (hnn d hd)
    by_cases hl : d < n0
    · rw [content_fuel T w d n (n + 1) hd hd (by omega), content_leaf T w hl, hw]
    · obtain ⟨a, b, k1, k2, _, k4, k5, k6, k7, _⟩ := T.kids d (by omega) hd
      have hs := V.super d a b hd k1 k2
      have h1 := V.nonneg a (by omega)
      have h2 := V.nonneg b (by omega)
      rw [content_meta T w hd k1 k2 k4 k5, if_pos hw, ih a k4 (by omega) k6 (by linarith),
        ih b k5 (by omega) k7 (by linarith), add_zero]

open Classical in
/-- Once nothing holds more than its volume, the accounted amount is what the hierarchy holds. -/
theorem amount_eq_held (T : FlowTree n0 n dep) (V : VolOk n0 n dep vol) (I : WaterInv n0 n dep vol act s)
    (hle : ∀ d, d < n → d ≠ 0 → s.water d ≤ vol d) :
    amount n dep vol act s.water = held n dep s.water := by
  have hpos := T.pos
  have hn := T.le
  set w := s.water with hw
  have hfull : ∀ d, d < n → d ≠ 0 → w d = vol d → content dep w n d = vol d := by
    intro d hd h0 hv
    by_cases hz : w d = 0
    · rw [content_zero T.toDepTree V I.nn hle d hd h0 (by rw [← hv, hz]), ← hv, hz]
    · by_cases hl : d < n0
      · rw [content_fuel T.toDepTree w d n (n + 1) hd hd (by omega), content_leaf T.toDepTree w hl, hv]
      · obtain ⟨a, b, k1, k2, _, k4, k5, _⟩ := T.kids d (by omega) hd
        rw [content_meta T.toDepTree w hd k1 k2 k4 k5, if_neg hz, hv]
  have hg0 : ∀ d, d < n0 → (if act d then kidVol dep vol d else (0 : E)) = 0 := by
    intro d hd
    cases ha : act d with
    | false => simp
    | true => have := (I.al d ha).1; omega
  have main : ∀ m, 1 ≤ m → m ≤ n →
      (Finset.range m).sum (fun d => w d - if act d then kidVol dep vol d else 0) =
        w 0 + ((Finset.range m).filter (fun d => d ≠ 0 ∧ ∀ p, upOf dep d = some p → m ≤ p)).sum (content dep w n) := by
    intro m
    induction m with
    | zero => intro h; omega
    | succ m ih =>
      intro _ hm
      by_cases hm0 : m = 0
      · subst hm0
        have : ((Finset.range 1).filter (fun d => d ≠ 0 ∧ ∀ p, upOf dep d = some p → 1 ≤ p)) = ∅ := by
          ext x; simp; intro a b; exact absurd a b
        rw [this, Finset.sum_range_one, hg0 0 (by omega)]; simp
      · rw [Finset.sum_range_succ, ih (by omega) (by omega)]
        set R := (Finset.range m).filter (fun d => d ≠ 0 ∧ ∀ p, upOf dep d = some p → m ≤ p) with hR
        have hmR : m ∉ R := by rw [hR]; simp
        by_cases hl : m < n0
        · have hR' : (Finset.range (m + 1)).filter (fun d => d ≠ 0 ∧ ∀ p, upOf dep d = some p → m + 1 ≤ p) = insert m R := by
            ext x
            simp only [hR, Finset.mem_insert, Finset.mem_filter, Finset.mem_range]
            constructor
            · rintro ⟨h1, h2, h3⟩
              by_cases e : x = m
              · exact .inl e
              · exact .inr ⟨by omega, h2, fun p hp => by have := h3 p hp; omega⟩
            · rintro (rfl | ⟨h1, h2, h3⟩)
              · exact ⟨by omega, hm0, fun p hp => (T.up x p hp).1⟩
              · exact ⟨by omega, h2, fun p hp => by have := (T.up x p hp).2.2.1; omega⟩
          rw [hR', Finset.sum_insert hmR, hg0 m hl,
            content_fuel T.toDepTree w m n (n + 1) (by omega) (by omega) (by omega), content_leaf T.toDepTree w hl]
          ring
        · obtain ⟨a, b, k1, k2, k3, k4, k5, k6, k7, k8, k9, _⟩ := T.kids m (by omega) (by omega)
          have haR : a ∈ R := by
            rw [hR]; simp only [Finset.mem_filter, Finset.mem_range]
            exact ⟨k4, k6, fun p hp => by rw [k8] at hp; cases hp; exact le_refl _⟩
          have hbR : b ∈ R := by
            rw [hR]; simp only [Finset.mem_filter, Finset.mem_range]
            exact ⟨k5, k7, fun p hp => by rw [k9] at hp; cases hp; exact le_refl _⟩
          have hR' : (Finset.range (m + 1)).filter (fun d => d ≠ 0 ∧ ∀ p, upOf dep d = some p → m + 1 ≤ p) =
              insert m ((R.erase a).erase b) := by
            ext x
            simp only [hR, Finset.mem_insert, Finset.mem_filter, Finset.mem_range, Finset.mem_erase]
            constructor
            · rintro ⟨h1, h2, h3⟩
              by_cases e : x = m
              · exact .inl e
              · refine .inr ⟨?_, ?_, by omega, h2, fun p hp => by have := h3 p hp; omega⟩
                · rintro rfl; have := h3 m k9; omega
                · rintro rfl; have := h3 m k8; omega
            · rintro (rfl | ⟨h1, h2, h3, h4, h5⟩)
              · exact ⟨by omega, hm0, fun p hp => (T.up x p hp).1⟩
              · refine ⟨by omega, h4, fun p hp => ?_⟩
                have hge := h5 p hp
                by_contra hcon
                obtain rfl : p = m := by omega
                rcases (T.up x p hp).2.2.2 with q | q
                · rw [k1] at q; cases q; exact h2 rfl
                · rw [k2] at q; cases q; exact h1 rfl
          have hm1 : m ∉ (R.erase a).erase b := fun h => hmR (Finset.mem_of_mem_erase (Finset.mem_of_mem_erase h))
          have e1 : content dep w n b + ((R.erase a).erase b).sum (content dep w n) = (R.erase a).sum (content dep w n) :=
            Finset.add_sum_erase _ _ (Finset.mem_erase.2 ⟨Ne.symm k3, hbR⟩)
          have e2 : content dep w n a + (R.erase a).sum (content dep w n) = R.sum (content dep w n) :=
            Finset.add_sum_erase _ _ haR
          have key : content dep w n m = w m - (if act m then kidVol dep vol m else 0) + content dep w n a + content dep w n b := by
            have hkv : kidVol dep vol m = vol a + vol b := by unfold kidVol; rw [k1, k2]
            cases ha : act m with
            | false =>
              have hz : w m = 0 := by
                by_contra h
                have := I.i1 m (by omega) (by omega) h
                rw [ha] at this; cases this
              rw [content_meta T.toDepTree w (by omega) k1 k2 k4 k5, if_pos hz, hz]; simp
            | true =>
              have wa : w a = vol a := le_antisymm (hle a (by omega) k6) (I.i2 m a ha k8)
              have wb : w b = vol b := le_antisymm (hle b (by omega) k7) (I.i2 m b ha k9)
              rw [content_meta T.toDepTree w (by omega) k1 k2 k4 k5, hfull a (by omega) k6 wa, hfull b (by omega) k7 wb]
              simp only [if_true, hkv]
              by_cases hz : w m = 0
              · rw [if_pos hz, hz]
                have h4 := I.i4 m ha
                change kidVol dep vol m ≤ w m at h4
                rw [hkv, hz] at h4
                have h1 := V.nonneg a (by omega)
                have h2 := V.nonneg b (by omega)
                have h3 : vol a + vol b = 0 := le_antisymm h4 (by linarith)
                rw [h3]; linarith
              · rw [if_neg hz]; ring
          rw [hR', Finset.sum_insert hm1, key, ← e2, ← e1]
          ring
  unfold amount held
  rw [main n (by omega) (le_refl _)]
  congr 1
  apply Finset.sum_congr _ (fun _ _ => rfl)
  ext x
  simp only [Finset.mem_filter, Finset.mem_range]
  constructor
  · rintro ⟨h1, h2, h3⟩
    refine ⟨h1, h2, ?_⟩
    cases ho : (dep x).oceanParent with
    | true => rfl
    | false =>
      cases hp : (dep x).parent with
      | none => exact absurd hp (T.par x h1 h2)
      | some p =>
        have hu : upOf dep x = some p := by unfold upOf; simp [ho, hp]
        have := h3 p hu
        have := (T.up x p hu).2.1
        omega
  · rintro ⟨h1, h2, h3⟩
    refine ⟨h1, h2, ?_⟩
    intro p hp
    unfold upOf at hp
    rw [if_pos h3] at hp; cases hp

end Cons

end RichDEM
