import Verif.Flow.Accum
import Verif.Fill.Bucket
import Mathlib.Logic.Relation

/-!
`d8_upslope_cells` (include/richdem/methods/d8_methods.hpp:144-236).
-/

namespace RichDEM

open Relation

/-! ### The flood -/

/-- d8_methods.hpp:219-231: one direction of the popped cell `c`.  The raster written is an
Array2D whose NoData value is 255 (line 179). -/
def upDir (q : AnyQ Cell) (w h : Nat) (fd : Cell → Nat) (nd : Nat) (c : Cell) (s : FillS Nat)
    (n : Nat) : FillS Nat :=
  let d := nbr .D8 c n
  if inGrid w h d = false then s
  else if fd d = 0 then s
  else if fd d = nd then s
  else if s.val d = FLOWDIR_NO_DATA ∧ n = dinverse .D8 (fd d) then
    { val := Function.update s.val d 1, q := q.push d s.q }
  else s

/-- d8_methods.hpp:213-231: one iteration of the loop. -/
def upStep (q : AnyQ Cell) (w h : Nat) (fd : Cell → Nat) (nd : Nat) (s : FillS Nat) :
    Option (FillS Nat) :=
  match q.pop s.q with
  | none => none
  | some (c, rest) => some ((dirs .D8).foldl (upDir q w h fd nd c) { s with q := rest })

/-- d8_methods.hpp:176-180 and 196-206: the raster and queue after the given cells of the line
were marked and queued, in order. -/
def upStart (q : AnyQ Cell) (seeds : List Cell) : FillS Nat :=
  seeds.foldl (fun s c => { val := Function.update s.val c 2, q := q.push c s.q })
    { val := fun _ => FLOWDIR_NO_DATA, q := [] }

/-- d8_methods.hpp:213-231: the flood from the given seeds.  `2*w*h + #seeds` iterations are
enough (`upslope_spec`). -/
def upslopeFrom (q : AnyQ Cell) (w h : Nat) (fd : Cell → Nat) (nd : Nat) (seeds : List Cell) :
    Cell → Nat :=
  (loop (upStep q w h fd nd) (2 * (w * h) + seeds.length) (upStart q seeds)).val

/-! ### The line -/

/-- State of the line drawing (d8_methods.hpp:189-207): current row and error.  The error is kept
as `error*deltax`, an exact integer, instead of a `float`. -/
structure LineS where
  y : Int
  err : Int
  out : List Cell

/-- d8_methods.hpp:199-207: one column.  With `deltax = 0` the C++ has `deltaerr` infinite
(`deltay ≠ 0`): the error test succeeds; or NaN (`deltay = 0`): it fails. -/
def lineStep (dx dy : Int) (s : LineS) (x : Int) : LineS :=
  let out := s.out ++ [(x, s.y)]
  let err := s.err + |dy|
  if (dx ≠ 0 ∧ dx ≤ 2 * err) ∨ (dx = 0 ∧ dy ≠ 0) then
    { y := s.y + dy.sign, err := err - dx, out := out ++ [(x + 1, s.y)] }
  else { y := s.y, err := err, out := out }

/-- d8_methods.hpp:184-207: the cells drawn, in order. -/
def lineCells (x0 y0 x1 y1 : Int) : List Cell :=
  let (x0, y0, x1, y1) := if x0 > x1 then (x1, y1, x0, y0) else (x0, y0, x1, y1)
  ((List.range (x1 - x0 + 1).toNat).foldl (fun s (k : Nat) => lineStep (x1 - x0) (y1 - y0) s (x0 + k))
    { y := y0, err := 0, out := [] }).out

/-- d8_methods.hpp:168-236 (`d8_upslope_cells`): `none` when a cell outside the raster is written
(`upslope_cells(x+1,y)=2` is not checked against the raster: undefined behaviour).  The reads of
`flowdirs` are checked by `inGrid`.  `progress.start(flowdirs.data_cells)` (line 210), which does
not compile, is left out. -/
def upslopeCells (q : AnyQ Cell) (w h : Nat) (fd : Cell → Nat) (nd : Nat) (x0 y0 x1 y1 : Int) :
    Option (Cell → Nat) :=
  let seeds := lineCells x0 y0 x1 y1
  if seeds.all (inGrid w h) then some (upslopeFrom q w h fd nd seeds) else none

/-! ### Correctness of the flood -/

/-- The cell `a` has a direction and it names `b`. -/
def DrainsTo (w h : Nat) (fd : Cell → Nat) (nd : Nat) (a b : Cell) : Prop :=
  InGrid w h a ∧ fd a ≠ nd ∧ fd a ≠ 0 ∧ b = nbr .D8 a (fd a)

theorem inverse_iff {c : Cell} {n m : Nat} (hn : n ∈ dirs .D8) (hm : 1 ≤ m ∧ m ≤ 8) :
    n = dinverse .D8 m ↔ c = nbr .D8 (nbr .D8 c n) m := by
  have hn' : 1 ≤ n ∧ n ≤ 8 := mem_dirs.1 hn
  have key : ∀ n < 9, ∀ m < 9, 1 ≤ n → 1 ≤ m →
      (n = dinverse .D8 m ↔ dx .D8 n + dx .D8 m = 0 ∧ dy .D8 n + dy .D8 m = 0) := by
    decide +kernel
  rw [key n (by omega) m (by omega) hn'.1 hm.1]
  simp only [nbr, Prod.ext_iff]
  constructor
  · rintro ⟨a, b⟩; constructor <;> omega
  · rintro ⟨a, b⟩; constructor <;> omega

section
variable (q : AnyQ Cell) (w h : Nat) (fd : Cell → Nat) (nd : Nat) (seeds : List Cell)

structure UpInv (s : FillS Nat) : Prop where
  vals : ∀ c, s.val c = 2 ∧ c ∈ seeds ∨ s.val c = 1 ∧ c ∉ seeds ∨ s.val c = 255 ∧ c ∉ seeds
  sound : ∀ c, s.val c ≠ 255 → ∃ z ∈ seeds, ReflTransGen (DrainsTo w h fd nd) c z
  queued : ∀ c ∈ s.q, s.val c ≠ 255
  inside : ∀ c, s.val c ≠ 255 → InGrid w h c

/-- What is left to expand. -/
def UpClosed (P : Cell → Prop) (s : FillS Nat) : Prop :=
  ∀ b, s.val b ≠ 255 → P b → ∀ a, DrainsTo w h fd nd a b → s.val a ≠ 255

/-- What one direction does. -/
def UpPost (c : Cell) (n : Nat) (s s' : FillS Nat) : Prop :=
    UpInv w h fd nd seeds s' ∧
    (∀ b, s.val b ≠ 255 → s'.val b ≠ 255) ∧
    (∀ b, s'.val b ≠ 255 → s.val b = 255 → b ∈ s'.q) ∧ (∀ b ∈ s.q, b ∈ s'.q) ∧
    (DrainsTo w h fd nd (nbr .D8 c n) c → s'.val (nbr .D8 c n) ≠ 255) ∧
    2 * unflagged w h (fun c => !decide (s'.val c = 255)) + s'.q.length ≤
      2 * unflagged w h (fun c => !decide (s.val c = 255)) + s.q.length

variable {w h fd nd seeds}

theorem upDir_inv (hfd : ∀ c, InGrid w h c → fd c ≠ nd → fd c ≤ 8) {c : Cell} {s : FillS Nat} {n : Nat} (hn : n ∈ dirs .D8)
    (hI : UpInv w h fd nd seeds s) (hcv : s.val c ≠ 255) :
    UpPost w h fd nd seeds c n s (upDir q w h fd nd c s n) := by
  set s' := upDir q w h fd nd c s n with hs'
  have same : s' = s → (DrainsTo w h fd nd (nbr .D8 c n) c → s.val (nbr .D8 c n) ≠ 255) →
      UpPost w h fd nd seeds c n s s' :=
    fun e hd => by
      rw [e]
      exact ⟨hI, fun _ h => h, fun _ h1 h2 => absurd h2 h1, fun _ h => h, hd, le_refl _⟩
  by_cases h1 : inGrid w h (nbr .D8 c n) = false
  · refine same (by simp [s', upDir, h1]) ?_
    intro hd
    rw [inGrid_iff.2 hd.1] at h1; cases h1
  have hdin : InGrid w h (nbr .D8 c n) := inGrid_iff.1 (by simpa using h1)
  by_cases h2 : fd (nbr .D8 c n) = 0
  · exact same (by simp [s', upDir, h2]) (fun hd => absurd h2 hd.2.2.1)
  by_cases h3 : fd (nbr .D8 c n) = nd
  · refine same ?_ (fun hd => absurd h3 hd.2.1)
    simp only [s', upDir, if_neg h1, if_neg h2, if_pos h3]
  have hm : 1 ≤ fd (nbr .D8 c n) ∧ fd (nbr .D8 c n) ≤ 8 := ⟨by omega, hfd _ hdin h3⟩
  by_cases h4 : s.val (nbr .D8 c n) = FLOWDIR_NO_DATA ∧ n = dinverse .D8 (fd (nbr .D8 c n))
  · have e : s' = { val := Function.update s.val (nbr .D8 c n) 1, q := q.push (nbr .D8 c n) s.q } := by
      simp only [s', upDir, if_neg h1, if_neg h2, if_neg h3, if_pos h4]
    have hv : ∀ b, s'.val b = if b = nbr .D8 c n then 1 else s.val b := by
      intro b; rw [e]
      by_cases hb : b = nbr .D8 c n
      · subst hb; simp
      · simp [hb]
    have hq : ∀ b, b ∈ s'.q ↔ b = nbr .D8 c n ∨ b ∈ s.q := by
      intro b; rw [e]; exact q.mem_push
    have hd255 : s.val (nbr .D8 c n) = 255 := h4.1
    have hdr : DrainsTo w h fd nd (nbr .D8 c n) c := ⟨hdin, h3, h2, (inverse_iff hn hm).1 h4.2⟩
    refine ⟨⟨?_, ?_, ?_, ?_⟩, ?_, ?_, ?_, ?_, ?_⟩
    · intro b
      rw [hv]
      by_cases hb : b = nbr .D8 c n
      · rw [if_pos hb, hb]
        rcases hI.vals (nbr .D8 c n) with ⟨k, _⟩ | ⟨k, _⟩ | ⟨_, k⟩
        · omega
        · omega
        · exact .inr (.inl ⟨rfl, k⟩)
      · rw [if_neg hb]; exact hI.vals b
    · intro b hb
      rw [hv] at hb
      by_cases e2 : b = nbr .D8 c n
      · obtain ⟨z, hz, hp⟩ := hI.sound c hcv
        exact ⟨z, hz, by rw [e2]; exact .head hdr hp⟩
      · rw [if_neg e2] at hb; exact hI.sound b hb
    · intro b hb
      rw [hv]
      rcases (hq b).1 hb with rfl | hb
      · simp
      · split
        · simp
        · exact hI.queued b hb
    · intro b hb
      rw [hv] at hb
      by_cases e2 : b = nbr .D8 c n
      · rw [e2]; exact hdin
      · rw [if_neg e2] at hb; exact hI.inside b hb
    · intro b hb
      rw [hv]; split
      · simp
      · exact hb
    · intro b hb h255
      rw [hv] at hb
      rw [hq]
      by_cases e2 : b = nbr .D8 c n
      · exact .inl e2
      · rw [if_neg e2] at hb; exact absurd h255 hb
    · intro b hb; exact (hq b).2 (.inr hb)
    · intro _; rw [hv, if_pos rfl]; simp
    · have hu : (fun c => !decide (s'.val c = 255)) =
          Function.update (fun c => !decide (s.val c = 255)) (nbr .D8 c n) true := by
        funext b
        rw [hv]
        by_cases hb : b = nbr .D8 c n
        · subst hb; simp
        · simp [hb]
      have := unflagged_update (w := w) (h := h) (f := fun c => !decide (s.val c = 255)) hdin
        (by simp [hd255])
      rw [hu]
      have hl : s'.q.length = s.q.length + 1 := by rw [e]; exact q.length_push
      omega
  · refine same (by simp only [s', upDir, if_neg h1, if_neg h2, if_neg h3, if_neg h4]) ?_
    intro hd hv
    exact h4 ⟨hv, (inverse_iff hn hm).2 hd.2.2.2⟩

theorem upStep_inv (hfd : ∀ c, InGrid w h c → fd c ≠ nd → fd c ≤ 8) {s s' : FillS Nat}
    (hI : UpInv w h fd nd seeds s) (hC : UpClosed w h fd nd (· ∉ s.q) s)
    (hs : upStep q w h fd nd s = some s') :
    (UpInv w h fd nd seeds s' ∧ UpClosed w h fd nd (· ∉ s'.q) s') ∧
    2 * unflagged w h (fun c => !decide (s'.val c = 255)) + s'.q.length <
      2 * unflagged w h (fun c => !decide (s.val c = 255)) + s.q.length := by
  unfold upStep at hs
  cases hp : q.pop s.q with
  | none => rw [hp] at hs; cases hs
  | some p =>
    obtain ⟨c, rest⟩ := p
    rw [hp] at hs
    simp only [Option.some.injEq] at hs
    have hperm := (q.pop_some hp).1
    have hcv : s.val c ≠ 255 := hI.queued c (hperm.mem_iff.2 (by simp))
    set s0 : FillS Nat := { s with q := rest } with hs0
    have hI0 : UpInv w h fd nd seeds s0 :=
      ⟨hI.vals, hI.sound, fun b hb => hI.queued b (hperm.mem_iff.2 (by simp [show b ∈ rest from hb])),
        hI.inside⟩
    have hl0 : s.q.length = s0.q.length + 1 := by rw [hperm.length_eq]; rfl
    -- fold
    have F := foldl_inv (f := upDir q w h fd nd c)
      (fun t => UpInv w h fd nd seeds t ∧ (∀ b, s0.val b ≠ 255 → t.val b ≠ 255) ∧
        (∀ b, t.val b ≠ 255 → s0.val b = 255 → b ∈ t.q) ∧ (∀ b ∈ s0.q, b ∈ t.q) ∧
        2 * unflagged w h (fun c => !decide (t.val c = 255)) + t.q.length ≤
          2 * unflagged w h (fun c => !decide (s0.val c = 255)) + s0.q.length)
      (fun n t => DrainsTo w h fd nd (nbr .D8 c n) c → t.val (nbr .D8 c n) ≠ 255)
      (dirs .D8) s0
      (by
        intro t n hn ⟨i1, i2, i3, i4, i5⟩
        obtain ⟨j1, j2, j3, j4, j5, j6⟩ := upDir_inv q hfd (c := c) hn i1 (i2 c hcv)
        refine ⟨⟨j1, fun b hb => j2 b (i2 b hb), ?_, fun b hb => j4 b (i4 b hb), j6.trans i5⟩, j5⟩
        intro b hb h0
        by_cases ht : t.val b = 255
        · exact j3 b hb ht
        · exact j4 b (i3 b ht h0))
      (by
        intro t n m hn ⟨i1, i2, i3, i4, i5⟩ hm hd
        exact (upDir_inv q hfd (c := c) hn i1 (i2 c hcv)).2.1 _ (hm hd))
      ⟨hI0, fun _ h => h, fun _ h1 h2 => absurd h2 h1, fun _ h => h, le_refl _⟩
    rw [hs] at F
    obtain ⟨⟨k1, k2, k3, k4, k5⟩, k6, _⟩ := F
    refine ⟨⟨k1, ?_⟩, ?_⟩
    · intro b hb hbq a hd
      by_cases hbc : b = c
      · subst hbc
        -- `a` is a neighbour of `b` through the inverse direction
        have hfa : 1 ≤ fd a ∧ fd a ≤ 8 := ⟨by have := hd.2.2.1; omega, hfd a hd.1 hd.2.1⟩
        have hadj : Adj .D8 a b := by
          rw [hd.2.2.2]; exact nbr_adj (mem_dirs.2 hfa)
        obtain ⟨n, hn, hnb⟩ := adj_iff_nbr.1 hadj.symm
        have := k6 n hn (by rw [hnb]; exact hd)
        rw [hnb] at this; exact this
      · have hb0 : s.val b ≠ 255 := fun h0 => hbq (k3 b hb h0)
        have hbs : b ∉ s.q := by
          intro hb'
          rcases List.mem_cons.1 (hperm.mem_iff.1 hb') with e | e
          · exact hbc e
          · exact hbq (k4 b e)
        exact k2 a (hC b hb0 hbs a hd)
    · have : (fun c => !decide (s0.val c = 255)) = (fun c => !decide (s.val c = 255)) := rfl
      rw [this] at k5
      omega

theorem upStart_spec : (∀ c, (upStart q seeds).val c = if c ∈ seeds then 2 else 255) ∧
    (∀ c, c ∈ (upStart q seeds).q ↔ c ∈ seeds) ∧ (upStart q seeds).q.length = seeds.length := by
  unfold upStart
  have key : ∀ (l : List Cell) (s : FillS Nat) (P : Cell → Prop) [DecidablePred P],
      (∀ c, s.val c = if P c then 2 else 255) → (∀ c, c ∈ s.q ↔ P c) →
      let t := l.foldl (fun s c => ({ val := Function.update s.val c 2, q := q.push c s.q } : FillS Nat)) s
      (∀ c, t.val c = if P c ∨ c ∈ l then 2 else 255) ∧ (∀ c, c ∈ t.q ↔ P c ∨ c ∈ l) ∧
        t.q.length = s.q.length + l.length := by
    intro l
    induction l with
    | nil => intro s P _ h1 h2; simp [h1, h2]
    | cons a l ih =>
      intro s P _ h1 h2
      have := ih { val := Function.update s.val a 2, q := q.push a s.q } (fun c => P c ∨ c = a)
        (by
          intro c
          by_cases hc : c = a
          · subst hc; simp
          · simp [hc, h1])
        (by intro c; simp only [q.mem_push, h2]; exact or_comm)
      obtain ⟨i1, i2, i3⟩ := this
      refine ⟨?_, ?_, ?_⟩
      · intro c; rw [List.foldl_cons, i1]; simp only [or_assoc, List.mem_cons]
      · intro c; rw [List.foldl_cons, i2]; simp only [or_assoc, List.mem_cons]
      · rw [List.foldl_cons, i3]
        have : (q.push a s.q).length = s.q.length + 1 := q.length_push
        simp only [this, List.length_cons]; omega
  have := key seeds { val := fun _ => FLOWDIR_NO_DATA, q := [] } (fun _ => False)
    (by intro c; rfl) (by intro c; simp)
  simpa using this

/-- The flood marks exactly the cells whose flow path meets a seed. -/
theorem upslope_spec (hfd : ∀ c, InGrid w h c → fd c ≠ nd → fd c ≤ 8)
    (hseeds : ∀ c ∈ seeds, InGrid w h c) (c : Cell) :
    let v := upslopeFrom q w h fd nd seeds c
    (v = 2 ↔ c ∈ seeds) ∧
    (v = 1 ↔ c ∉ seeds ∧ ∃ z ∈ seeds, ReflTransGen (DrainsTo w h fd nd) c z) ∧
    (v = 255 ↔ ¬ ∃ z ∈ seeds, ReflTransGen (DrainsTo w h fd nd) c z) := by
  intro v
  obtain ⟨u1, u2, u3⟩ := upStart_spec q (seeds := seeds)
  have hne : ∀ b, (upStart q seeds).val b ≠ 255 ↔ b ∈ seeds := by
    intro b; rw [u1]; split <;> simp_all
  have L := loop_spec (step := upStep q w h fd nd)
    (fun s => UpInv w h fd nd seeds s ∧ UpClosed w h fd nd (· ∉ s.q) s)
    (fun s => 2 * unflagged w h (fun c => !decide (s.val c = 255)) + s.q.length)
    (fun s s' hi hs => upStep_inv q hfd hi.1 hi.2 hs)
    (2 * (w * h) + seeds.length) (upStart q seeds)
    ⟨⟨fun b => by rw [u1]; by_cases hb : b ∈ seeds <;> simp [hb],
      fun b hb => ⟨b, (hne b).1 hb, .refl⟩, fun b hb => (hne b).2 ((u2 b).1 hb),
      fun b hb => hseeds b ((hne b).1 hb)⟩,
      fun b hb hbq => absurd ((u2 b).2 ((hne b).1 hb)) hbq⟩
    (by
      have := unflagged_le w h (fun c => !decide ((upStart q seeds).val c = 255))
      omega)
  obtain ⟨⟨hI, hC⟩, hend⟩ := L
  set s := loop (upStep q w h fd nd) (2 * (w * h) + seeds.length) (upStart q seeds) with hs
  have hq : s.q = [] := by
    unfold upStep at hend
    cases hp : q.pop s.q with
    | none => exact q.pop_none.1 hp
    | some p => rw [hp] at hend; cases hend
  have hv : v = s.val c := rfl
  have hseed : ∀ z ∈ seeds, s.val z = 2 := by
    intro z hz
    rcases hI.vals z with ⟨k, _⟩ | ⟨_, k⟩ | ⟨_, k⟩
    · exact k
    · exact absurd hz k
    · exact absurd hz k
  have hcomp : ∀ z ∈ seeds, ∀ a, ReflTransGen (DrainsTo w h fd nd) a z → s.val a ≠ 255 := by
    intro z hz a hp
    induction hp using ReflTransGen.head_induction_on with
    | refl => rw [hseed z hz]; simp
    | head hab _ ih => exact hC _ ih (by rw [hq]; simp) _ hab
  have h255 : v ≠ 255 ↔ ∃ z ∈ seeds, ReflTransGen (DrainsTo w h fd nd) c z := by
    constructor
    · exact fun hh => hI.sound c hh
    · rintro ⟨z, hz, hp⟩; exact hcomp z hz c hp
  rcases hI.vals c with ⟨k, k2⟩ | ⟨k, k2⟩ | ⟨k, k2⟩
  all_goals rw [← hv] at k
  · refine ⟨by simp [k, k2], by simp [k, k2], ?_⟩
    have := h255.1 (by simp [k]); simp only [k, this]; simp
  · have := h255.1 (by simp [k])
    refine ⟨by simp [k, k2], ?_, ?_⟩
    · simp only [k, this, k2]; simp
    · simp only [k, this]; simp
  · have : ¬ ∃ z ∈ seeds, ReflTransGen (DrainsTo w h fd nd) c z := fun hh => h255.2 hh k
    refine ⟨by simp [k, k2], ?_, ?_⟩
    · simp only [k, this]; simp
    · simp only [k, this]; simp

end

end RichDEM
