import Verif.Flow.Accum
import Mathlib.Logic.Relation

/-!
Flood fills that mark a cell when it is popped: `BucketFill`, `BucketFillFromEdges`
(include/richdem/misc/misc_methods.hpp) and `LabelFlat` (include/richdem/flats/Barnes2014.hpp).

Queues and stacks are both instances of `AnyQ`, a container that may serve any entry, so the
results hold for every traversal order.
-/

namespace RichDEM

open Relation

/-- State of a fill: the raster being written and the work list. -/
structure FillS (U : Type*) where
  val : Cell → U
  q : List Cell

/-! ### BucketFill -/

section Bucket
variable {T U : Type*} [DecidableEq T] [DecidableEq U]

/-- misc_methods.hpp:288-296: the neighbours pushed. -/
def bfCand (w h : Nat) (t : Topo) (check : Cell → T) (cv : T) (val : Cell → U) (sv : U)
    (c : Cell) : List Cell :=
  ((dirs t).map (nbr t c)).filter (fun d => inGrid w h d && check d == cv && !(val d == sv))

/-- misc_methods.hpp:275-297: one iteration of the loop. -/
def bfStep (q : AnyQ Cell) (w h : Nat) (t : Topo) (check : Cell → T) (cv : T) (sv : U)
    (s : FillS U) : Option (FillS U) :=
  match q.pop s.q with
  | none => none
  | some (c, rest) =>
    if check c ≠ cv ∨ s.val c = sv then some { s with q := rest }
    else
      let val := Function.update s.val c sv
      some { val := val, q := q.pushAll (bfCand w h t check cv val sv c) rest }

/-- misc_methods.hpp:258-298 (`BucketFill`); the dimension check (266-268) is not modelled.  The
number of iterations is bounded by `9*w*h` plus the number of seeds
(`C42_terminates`). -/
def bucketFill (q : AnyQ Cell) (w h : Nat) (t : Topo) (check : Cell → T) (cv : T) (set : Cell → U)
    (sv : U) (seeds : List Cell) : FillS U :=
  loop (bfStep q w h t check cv sv) (9 * (w * h) + seeds.length) { val := set, q := seeds }

/-- misc_methods.hpp:325-332: the seeds of `BucketFillFromEdges`. -/
def edgeSeeds (w h : Nat) : List Cell :=
  (List.range h).flatMap (fun y : Nat => [((0 : Int), (y : Int)), ((w : Int) - 1, (y : Int))]) ++
  (List.range w).flatMap (fun x : Nat => [((x : Int), (0 : Int)), ((x : Int), (h : Int) - 1)])

/-- misc_methods.hpp:316-334 (`BucketFillFromEdges`). -/
def bucketFillFromEdges (q : AnyQ Cell) (w h : Nat) (t : Topo) (check : Cell → T) (cv : T)
    (set : Cell → U) (sv : U) : FillS U :=
  bucketFill q w h t check cv set sv (edgeSeeds w h)

end Bucket

/-! ### LabelFlat -/

/-- Barnes2014.hpp:273-278: the neighbours pushed. -/
def lfCand (w h : Nat) (c : Cell) : List Cell :=
  ((dirs .D8).map (nbr .D8 c)).filter (fun d => inGrid w h d)

/-- Barnes2014.hpp:257-279: one iteration of the loop. -/
def lfStep {E : Type*} [DecidableEq E] (q : AnyQ Cell) (w h : Nat) (dem : Cell → E) (target : E)
    (label : Int) (s : FillS Int) : Option (FillS Int) :=
  match q.pop s.q with
  | none => none
  | some (c, rest) =>
    if dem c ≠ target then some { s with q := rest }
    else if s.val c > 0 then some { s with q := rest }
    else some { val := Function.update s.val c label, q := q.pushAll (lfCand w h c) rest }

/-- Barnes2014.hpp:244-280 (`LabelFlat`). -/
def labelFlat {E : Type*} [DecidableEq E] (q : AnyQ Cell) (w h : Nat) (dem : Cell → E) (c0 : Cell)
    (label : Int) (labels : Cell → Int) : FillS Int :=
  loop (lfStep q w h dem (dem c0) label) (9 * (w * h) + 1) { val := labels, q := q.push c0 [] }

/-! ### Generic theory -/

section Generic
variable {U : Type*}

/-- One iteration of a generic mark-on-pop fill. -/
def fillStep (q : AnyQ Cell) (ok : Cell → Bool) (marked : U → Bool) (v : U)
    (cand : (Cell → U) → Cell → List Cell) (s : FillS U) : Option (FillS U) :=
  match q.pop s.q with
  | none => none
  | some (c, rest) =>
    if ok c = false ∨ marked (s.val c) = true then some { s with q := rest }
    else some { val := Function.update s.val c v
                q := q.pushAll (cand (Function.update s.val c v) c) rest }

/-- Admissible step of a fill: to an adjacent in-grid cell that passes the test and was not
marked initially. -/
def FillEdge (w h : Nat) (t : Topo) (ok : Cell → Bool) (marked : U → Bool) (val0 : Cell → U)
    (a b : Cell) : Prop :=
  Adj t a b ∧ InGrid w h b ∧ ok b = true ∧ marked (val0 b) = false

/-- The cells a fill from `seeds` has to mark. -/
def FillReach (w h : Nat) (t : Topo) (ok : Cell → Bool) (marked : U → Bool) (val0 : Cell → U)
    (seeds : List Cell) (c : Cell) : Prop :=
  ∃ s ∈ seeds, ok s = true ∧ marked (val0 s) = false ∧
    ReflTransGen (FillEdge w h t ok marked val0) s c

structure FillInv (w h : Nat) (t : Topo) (ok : Cell → Bool) (marked : U → Bool) (v : U)
    (val0 : Cell → U) (seeds : List Cell) (D : Cell → Bool) (s : FillS U) : Prop where
  val : ∀ c, s.val c = if D c then v else val0 c
  inside : ∀ c ∈ s.q, InGrid w h c
  dInside : ∀ c, D c = true → InGrid w h c
  sound : ∀ c, D c = true → FillReach w h t ok marked val0 seeds c
  qsound : ∀ c ∈ s.q, ok c = true → marked (val0 c) = false →
    FillReach w h t ok marked val0 seeds c
  front : ∀ a b, D a = true → FillEdge w h t ok marked val0 a b → D b = true ∨ b ∈ s.q
  seeded : ∀ a ∈ seeds, ok a = true → marked (val0 a) = false → D a = true ∨ a ∈ s.q

variable {w h : Nat} {t : Topo} {ok : Cell → Bool} {marked : U → Bool} {v : U} {val0 : Cell → U}
  {seeds : List Cell} {cand : (Cell → U) → Cell → List Cell}

theorem fillReach_ok {c : Cell} (hr : FillReach w h t ok marked val0 seeds c) :
    ok c = true ∧ marked (val0 c) = false := by
  obtain ⟨s, _, h1, h2, h3⟩ := hr
  rcases ReflTransGen.cases_tail h3 with rfl | ⟨b, _, hb⟩
  · exact ⟨h1, h2⟩
  · exact ⟨hb.2.2.1, hb.2.2.2⟩

theorem fillStep_inv (q : AnyQ Cell) (hv : marked v = true)
    (hcand1 : ∀ f c, InGrid w h c → ∀ d ∈ cand f c, InGrid w h d ∧ Adj t c d)
    (hcand2 : ∀ f c d, InGrid w h d → Adj t c d → ok d = true → marked (f d) = false → d ∈ cand f c)
    (hcand3 : ∀ f c, (cand f c).length ≤ 8)
    {D : Cell → Bool} {s s' : FillS U}
    (I : FillInv w h t ok marked v val0 seeds D s)
    (hs : fillStep q ok marked v cand s = some s') :
    ∃ D', FillInv w h t ok marked v val0 seeds D' s' ∧
      9 * unflagged w h D' + s'.q.length < 9 * unflagged w h D + s.q.length := by
  unfold fillStep at hs
  split at hs
  · cases hs
  rename_i c rest hpop
  obtain ⟨hperm, -⟩ := q.pop_some hpop
  have hmem : ∀ d, d ∈ s.q ↔ d = c ∨ d ∈ rest := by
    intro d; rw [hperm.mem_iff]; simp
  have hlen : s.q.length = rest.length + 1 := by rw [hperm.length_eq]; simp
  have hcin := I.inside c ((hmem c).2 (.inl rfl))
  split at hs
  · rename_i hskip
    injection hs with hs
    subst hs
    have hskip' : ¬ (ok c = true ∧ marked (val0 c) = false ∧ D c = false) := by
      rintro ⟨h1, h2, h3⟩
      rcases hskip with h | h
      · rw [h1] at h; cases h
      · rw [I.val, h3] at h
        simp only [Bool.false_eq_true, if_false, h2] at h
    refine ⟨D, ⟨I.val, fun d hd => I.inside d ((hmem d).2 (.inr hd)), I.dInside, I.sound,
      fun d hd => I.qsound d ((hmem d).2 (.inr hd)), ?_, ?_⟩, ?_⟩
    · intro a b ha hab
      rcases I.front a b ha hab with h1 | h1
      · exact .inl h1
      · rcases (hmem b).1 h1 with rfl | h1
        · left
          by_contra hD
          exact hskip' ⟨hab.2.2.1, hab.2.2.2, by simpa using hD⟩
        · exact .inr h1
    · intro a ha h1 h2
      rcases I.seeded a ha h1 h2 with h3 | h3
      · exact .inl h3
      · rcases (hmem a).1 h3 with rfl | h3
        · left
          by_contra hD
          exact hskip' ⟨h1, h2, by simpa using hD⟩
        · exact .inr h3
    · simp only; omega
  · rename_i hgo
    rw [not_or] at hgo
    obtain ⟨hok, hnm⟩ := hgo
    have hok' : ok c = true := by simpa using hok
    injection hs with hs
    have hDc : D c = false := by
      by_contra hD
      apply hnm
      rw [I.val, show D c = true by simpa using hD]
      simpa using hv
    have hm0 : marked (val0 c) = false := by
      rw [I.val, hDc] at hnm
      simpa using hnm
    have hreach : FillReach w h t ok marked val0 seeds c :=
      I.qsound c ((hmem c).2 (.inl rfl)) hok' hm0
    set f := Function.update s.val c v with hf
    have hfv : ∀ d, f d = if Function.update D c true d then v else val0 d := by
      intro d
      by_cases hd : d = c
      · subst hd; simp [hf]
      · simp only [hf, Function.update_of_ne hd]; exact I.val d
    have hq' : ∀ d, d ∈ s'.q ↔ d ∈ cand f c ∨ d ∈ rest := by
      intro d; rw [← hs]; exact q.mem_pushAll
    have hval' : s'.val = f := by rw [← hs]
    refine ⟨Function.update D c true, ⟨?_, ?_, ?_, ?_, ?_, ?_, ?_⟩, ?_⟩
    · intro d; rw [hval']; exact hfv d
    · intro d hd
      rcases (hq' d).1 hd with h1 | h1
      · exact (hcand1 f c hcin d h1).1
      · exact I.inside d ((hmem d).2 (.inr h1))
    · intro d hd
      by_cases hdc : d = c
      · rw [hdc]; exact hcin
      · rw [Function.update_of_ne hdc] at hd; exact I.dInside d hd
    · intro d hd
      by_cases hdc : d = c
      · rw [hdc]; exact hreach
      · rw [Function.update_of_ne hdc] at hd; exact I.sound d hd
    · intro d hd h1 h2
      rcases (hq' d).1 hd with h3 | h3
      · obtain ⟨k1, k2⟩ := hcand1 f c hcin d h3
        obtain ⟨s0, hs0, a1, a2, a3⟩ := hreach
        exact ⟨s0, hs0, a1, a2, a3.tail ⟨k2, k1, h1, h2⟩⟩
      · exact I.qsound d ((hmem d).2 (.inr h3)) h1 h2
    · intro a b ha hab
      by_cases hbc : b = c
      · left; rw [hbc]; simp
      by_cases hDb : D b = true
      · left; rw [Function.update_of_ne hbc]; exact hDb
      right
      rw [hq']
      by_cases hac : a = c
      · left
        refine hcand2 f c b hab.2.1 (hac ▸ hab.1) hab.2.2.1 ?_
        rw [hfv, Function.update_of_ne hbc, if_neg hDb]
        exact hab.2.2.2
      · rw [Function.update_of_ne hac] at ha
        right
        rcases I.front a b ha hab with h1 | h1
        · exact absurd h1 hDb
        · rcases (hmem b).1 h1 with h1 | h1
          · exact absurd h1 hbc
          · exact h1
    · intro a ha h1 h2
      by_cases hac : a = c
      · left; rw [hac]; simp
      rcases I.seeded a ha h1 h2 with h3 | h3
      · left; rw [Function.update_of_ne hac]; exact h3
      · right
        rw [hq']
        rcases (hmem a).1 h3 with h3 | h3
        · exact absurd h3 hac
        · exact .inr h3
    · have h1 := unflagged_update hcin hDc
      have h2 : s'.q.length = (cand f c).length + rest.length := by
        rw [← hs]; exact q.length_pushAll
      have h3 := hcand3 f c
      omega

/-- A fill marks exactly the reachable cells and changes nothing else. -/
theorem fill_final (q : AnyQ Cell) (hv : marked v = true)
    (hcand1 : ∀ f c, InGrid w h c → ∀ d ∈ cand f c, InGrid w h d ∧ Adj t c d)
    (hcand2 : ∀ f c d, InGrid w h d → Adj t c d → ok d = true → marked (f d) = false → d ∈ cand f c)
    (hcand3 : ∀ f c, (cand f c).length ≤ 8)
    (q0 : List Cell) (hq0 : ∀ c, c ∈ q0 ↔ c ∈ seeds) (hin : ∀ c ∈ seeds, InGrid w h c)
    (fuel : Nat) (hfuel : 9 * (w * h) + q0.length ≤ fuel) :
    let r := loop (fillStep q ok marked v cand) fuel { val := val0, q := q0 }
    r.q = [] ∧ ∃ D : Cell → Bool, (∀ c, D c = true ↔ FillReach w h t ok marked val0 seeds c) ∧
      ∀ c, r.val c = if D c then v else val0 c := by
  have I0 : FillInv w h t ok marked v val0 seeds (fun _ => false) { val := val0, q := q0 } := by
    refine ⟨by simp, fun c hc => hin c ((hq0 c).1 hc), by simp, by simp, ?_, by simp, ?_⟩
    · intro c hc h1 h2; exact ⟨c, (hq0 c).1 hc, h1, h2, .refl⟩
    · intro a ha _ _; exact .inr ((hq0 a).2 ha)
  -- the measure depends on the ghost and the state; carry the state in the ghost
  obtain ⟨g, ⟨I, -⟩, hnone⟩ := loop_ghost
    (fun (g : (Cell → Bool) × Nat) (s : FillS U) => FillInv w h t ok marked v val0 seeds g.1 s ∧
      g.2 = s.q.length)
    (fun g => 9 * unflagged w h g.1 + g.2)
    (by
      rintro ⟨D, n⟩ s s' ⟨hI, hn⟩ hss
      obtain ⟨D', hI', hlt⟩ := fillStep_inv q hv hcand1 hcand2 hcand3 hI hss
      simp only at hn
      exact ⟨(D', s'.q.length), ⟨hI', rfl⟩, by
        show 9 * unflagged w h D' + s'.q.length < 9 * unflagged w h D + n
        dsimp only at hlt
        omega⟩)
    fuel { val := val0, q := q0 } (fun _ => false, q0.length) ⟨I0, rfl⟩
    (by
      have := unflagged_le w h (fun _ => false)
      simp only; omega)
  intro r
  have hqe : r.q = [] := by
    unfold fillStep at hnone
    split at hnone
    · rename_i h1; exact q.pop_none.1 h1
    · split at hnone <;> cases hnone
  change FillInv w h t ok marked v val0 seeds g.1 r at I
  refine ⟨hqe, g.1, ?_, I.val⟩
  intro c
  refine ⟨I.sound c, ?_⟩
  rintro ⟨s, hs, h1, h2, h3⟩
  have hs' : g.1 s = true := by
    rcases I.seeded s hs h1 h2 with h4 | h4
    · exact h4
    · rw [hqe] at h4; exact absurd h4 (by simp)
  induction h3 with
  | refl => exact hs'
  | tail _ hab ih =>
    rcases I.front _ _ ih hab with h4 | h4
    · exact h4
    · rw [hqe] at h4; exact absurd h4 (by simp)

end Generic

section Bucket
variable {T U : Type*} [DecidableEq T] [DecidableEq U]

theorem bfStep_eq (q : AnyQ Cell) (w h : Nat) (t : Topo) (check : Cell → T) (cv : T) (sv : U)
    (s : FillS U) :
    bfStep q w h t check cv sv s = fillStep q (fun c => check c == cv) (fun u => u == sv) sv
      (fun f c => bfCand w h t check cv f sv c) s := by
  unfold bfStep fillStep
  rcases q.pop s.q with _ | ⟨c, rest⟩
  · rfl
  · simp only
    by_cases h1 : check c ≠ cv ∨ s.val c = sv
    · rw [if_pos h1, if_pos]
      rcases h1 with h1 | h1
      · left; simpa using h1
      · right; simpa using h1
    · rw [if_neg h1, if_neg]
      rw [not_or] at h1 ⊢
      exact ⟨by simpa using h1.1, by simpa using h1.2⟩

theorem length_dirs_le (t : Topo) : (dirs t).length ≤ 8 := by
  cases t <;> simp [dirs, nmax]

theorem bucket_final (q : AnyQ Cell) (w h : Nat) (t : Topo) (check : Cell → T) (cv : T)
    (set : Cell → U) (sv : U) (seeds : List Cell) (hin : ∀ c ∈ seeds, InGrid w h c) :
    let r := bucketFill q w h t check cv set sv seeds
    r.q = [] ∧ ∃ D : Cell → Bool,
      (∀ c, D c = true ↔
        FillReach w h t (fun c => check c == cv) (fun u => u == sv) set seeds c) ∧
      ∀ c, r.val c = if D c then sv else set c := by
  have hstep : bfStep q w h t check cv sv = fillStep q (fun c => check c == cv) (fun u => u == sv) sv
      (fun f c => bfCand w h t check cv f sv c) := funext (bfStep_eq q w h t check cv sv)
  unfold bucketFill
  rw [hstep]
  refine fill_final q (by simp) ?_ ?_ ?_ seeds (fun _ => Iff.rfl) hin _ (le_refl _)
  · intro f c hc d hd
    simp only [bfCand, List.mem_filter, List.mem_map, Bool.and_eq_true] at hd
    obtain ⟨⟨n, hn, rfl⟩, ⟨h1, _⟩, _⟩ := hd
    exact ⟨inGrid_iff.1 h1, nbr_adj hn⟩
  · intro f c d hd hadj h1 h2
    obtain ⟨n, hn, rfl⟩ := adj_iff_nbr.1 hadj
    simp only [bfCand, List.mem_filter, List.mem_map, Bool.and_eq_true]
    exact ⟨⟨n, hn, rfl⟩, ⟨inGrid_iff.2 hd, h1⟩, by simpa using h2⟩
  · intro f c
    refine (List.length_filter_le _ _).trans ?_
    rw [List.length_map]; exact length_dirs_le t

end Bucket

theorem mem_edgeSeeds {w h : Nat} (hw : 0 < w) (hh : 0 < h) (c : Cell) :
    c ∈ edgeSeeds w h ↔ OnEdge w h c := by
  obtain ⟨x, y⟩ := c
  simp only [edgeSeeds, List.mem_append, List.mem_flatMap, List.mem_range, List.mem_cons,
    Prod.mk.injEq, List.not_mem_nil, or_false]
  constructor
  · rintro (⟨y', hy, h1 | h1⟩ | ⟨x', hx, h1 | h1⟩)
    all_goals
      obtain ⟨h1, h2⟩ := h1
      refine ⟨⟨?_, ?_, ?_, ?_⟩, ?_⟩ <;> dsimp only <;> omega
  · rintro ⟨⟨h1, h2, h3, h4⟩, h5⟩
    simp only at h1 h2 h3 h4 h5
    rcases h5 with h5 | h5 | h5 | h5
    · left; exact ⟨y.toNat, by omega, .inl ⟨h5, by omega⟩⟩
    · right; exact ⟨x.toNat, by omega, .inl ⟨by omega, h5⟩⟩
    · left; exact ⟨y.toNat, by omega, .inr ⟨h5, by omega⟩⟩
    · right; exact ⟨x.toNat, by omega, .inr ⟨by omega, h5⟩⟩

theorem lfStep_eq {E : Type*} [DecidableEq E] (q : AnyQ Cell) (w h : Nat) (dem : Cell → E)
    (target : E) (label : Int) (s : FillS Int) :
    lfStep q w h dem target label s = fillStep q (fun c => dem c == target)
      (fun u => decide (u > 0)) label (fun _ c => lfCand w h c) s := by
  unfold lfStep fillStep
  rcases q.pop s.q with _ | ⟨c, rest⟩
  · rfl
  · simp only
    by_cases h1 : dem c = target
    · by_cases h2 : s.val c > 0
      · rw [if_neg (by simpa using h1), if_pos h2, if_pos (.inr (by simpa using h2))]
      · rw [if_neg (by simpa using h1), if_neg h2, if_neg]
        rw [not_or]
        exact ⟨by simpa using h1, by simpa using h2⟩
    · rw [if_pos h1, if_pos (.inl (by simpa using h1))]

theorem labelFlat_final {E : Type*} [DecidableEq E] (q : AnyQ Cell) (w h : Nat) (dem : Cell → E)
    (c0 : Cell) (hc0 : InGrid w h c0) (label : Int) (hl : 0 < label) (labels : Cell → Int) :
    let r := labelFlat q w h dem c0 label labels
    r.q = [] ∧ ∃ D : Cell → Bool,
      (∀ c, D c = true ↔
        FillReach w h .D8 (fun c => dem c == dem c0) (fun u => decide (u > 0)) labels [c0] c) ∧
      ∀ c, r.val c = if D c then label else labels c := by
  have hstep : lfStep q w h dem (dem c0) label = fillStep q (fun c => dem c == dem c0)
      (fun u => decide (u > 0)) label (fun _ c => lfCand w h c) :=
    funext (lfStep_eq q w h dem (dem c0) label)
  unfold labelFlat
  rw [hstep]
  refine fill_final q (by simpa using hl) ?_ ?_ ?_ (q.push c0 []) (by intro c; rw [q.mem_push]; simp)
    (by simpa using hc0) _ (by rw [q.length_push]; simp)
  · intro f c hc d hd
    simp only [lfCand, List.mem_filter, List.mem_map] at hd
    obtain ⟨⟨n, hn, rfl⟩, h1⟩ := hd
    exact ⟨inGrid_iff.1 h1, nbr_adj hn⟩
  · intro f c d hd hadj h1 h2
    obtain ⟨n, hn, rfl⟩ := adj_iff_nbr.1 hadj
    simp only [lfCand, List.mem_filter, List.mem_map]
    exact ⟨⟨n, hn, rfl⟩, inGrid_iff.2 hd⟩
  · intro f c
    refine (List.length_filter_le _ _).trans ?_
    rw [List.length_map]; exact length_dirs_le .D8

end RichDEM
