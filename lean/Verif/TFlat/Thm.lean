/-
Invariant of `Verif/TFlat/Model.lean`.
-/
import Verif.TFlat.Model
import Verif.DepHier.Flood
import Mathlib.Logic.Relation

namespace RichDEM

open Relation

variable {E : Type*} [LinearOrder E] (w h : Nat) (dem : Cell → E) (nd : E)

/-- A neighbour lies outside the raster, is NoData or is lower. -/
def TFDrain (c : Cell) : Prop := ∃ b, Adj .D8 c b ∧ (¬InGrid w h b ∨ dem b = nd ∨ dem b < dem c)

/-- A step within a flat. -/
def TFLevel (a b : Cell) : Prop := Adj .D8 a b ∧ InGrid w h b ∧ dem b ≠ nd ∧ dem b = dem a

/-- A cell that drains can be reached without leaving the flat. -/
def TFReach (c : Cell) : Prop := ∃ d, ReflTransGen (TFLevel w h dem nd) c d ∧ TFDrain w h dem nd d

/-- The direction leads away from the data, or to the lowest neighbour. -/
def TFLow (c : Cell) (n : Nat) : Prop :=
  (¬InGrid w h (nbr .D8 c n) ∨ dem (nbr .D8 c n) = nd) ∨
  (dem (nbr .D8 c n) < dem c ∧ ∀ b, Adj .D8 c b → InGrid w h b ∧ dem b ≠ nd ∧ dem (nbr .D8 c n) ≤ dem b)

/-- Where the direction of a cell leads, given times of assignment. -/
def TFGood (r : Cell → Nat) (fd : Cell → Nat) (c : Cell) : Prop :=
  ¬InGrid w h (nbr .D8 c (fd c)) ∨ dem (nbr .D8 c (fd c)) = nd ∨ dem (nbr .D8 c (fd c)) < dem c ∨
    (dem (nbr .D8 c (fd c)) = dem c ∧ fd (nbr .D8 c (fd c)) ≠ 0 ∧ r (nbr .D8 c (fd c)) < r c)

/-- The invariant of the directions. -/
structure TFInv (r : Cell → Nat) (k : Nat) (s : TFS) : Prop where
  grid : ∀ c, s.fd c ≠ 0 → InGrid w h c
  none : ∀ c, s.fd c ≠ 0 → dem c = nd → s.fd c = 255
  dir : ∀ c, s.fd c ≠ 0 → dem c ≠ nd → s.fd c ∈ dirs .D8
  time : ∀ c, s.fd c ≠ 0 → r c < k
  good : ∀ c, s.fd c ≠ 0 → dem c ≠ nd → TFGood w h dem nd r s.fd c
  reach : ∀ c, s.fd c ≠ 0 → dem c ≠ nd → TFReach w h dem nd c
  edge : ∀ c, s.fd c ≠ 0 → dem c ≠ nd → OnEdge w h c → ¬InGrid w h (nbr .D8 c (s.fd c))
  steep : ∀ c, s.fd c ≠ 0 → dem c ≠ nd → ¬OnEdge w h c → (∀ b, ¬TFLevel w h dem nd c b) → TFLow w h dem nd c (s.fd c)
  warn : s.warn = false

/-- Cells with a direction have neighbours in the same flat without one only if they are queued (or are the cell `x`). -/
def TFClosed (x : Option Cell) (s : TFS) : Prop :=
  ∀ a b, s.fd a ≠ 0 → dem a ≠ nd → TFLevel w h dem nd a b → ¬OnEdge w h b → s.fd b = 0 → a ∈ s.q ∨ x = some a

/-- Queued cells. -/
def TFQueue (flat : E) (s : TFS) : Prop := ∀ a ∈ s.q, s.fd a ≠ 0 ∧ dem a = flat

variable {w h dem nd}

theorem TFGood.congr {r r' : Cell → Nat} {fd fd' : Cell → Nat} {c : Cell} (hg : TFGood w h dem nd r fd c) (e1 : fd' c = fd c)
    (e2 : r' c = r c) (e3 : ∀ t, fd t ≠ 0 → fd' t ≠ 0 ∧ r' t = r t) : TFGood w h dem nd r' fd' c := by
  unfold TFGood at *
  rw [e1]
  rcases hg with h1 | h1 | h1 | ⟨h1, h2, h3⟩
  · exact Or.inl h1
  · exact Or.inr (Or.inl h1)
  · exact Or.inr (Or.inr (Or.inl h1))
  · obtain ⟨h4, h5⟩ := e3 _ h2
    exact Or.inr (Or.inr (Or.inr ⟨h1, h4, by rw [h5, e2]; exact h3⟩))

/-- Giving a direction to a cell that had none. -/
theorem TFInv.assign {r : Cell → Nat} {k : Nat} {s s' : TFS} (I : TFInv w h dem nd r k s) {b : Cell} {v : Nat} (hb : s.fd b = 0)
    (hin : InGrid w h b) (hv : v ≠ 0) (hfd : s'.fd = Function.update s.fd b v) (hw : s'.warn = false)
    (hnd : dem b = nd → v = 255)
    (hd : dem b ≠ nd → v ∈ dirs .D8 ∧ TFReach w h dem nd b ∧ (OnEdge w h b → ¬InGrid w h (nbr .D8 b v)) ∧
      (¬OnEdge w h b → (∀ c, ¬TFLevel w h dem nd b c) → TFLow w h dem nd b v) ∧
      (¬InGrid w h (nbr .D8 b v) ∨ dem (nbr .D8 b v) = nd ∨ dem (nbr .D8 b v) < dem b ∨
        (dem (nbr .D8 b v) = dem b ∧ s.fd (nbr .D8 b v) ≠ 0))) :
    TFInv w h dem nd (Function.update r b k) (k + 1) s' := by
  have hs : ∀ c, c ≠ b → s'.fd c = s.fd c := fun c hc => by rw [hfd, Function.update_of_ne hc]
  have hs2 : s'.fd b = v := by rw [hfd, Function.update_self]
  have hne : ∀ t, s.fd t ≠ 0 → t ≠ b := by rintro t ht rfl; exact ht hb
  have he3 : ∀ t, s.fd t ≠ 0 → s'.fd t ≠ 0 ∧ Function.update r b k t = r t := fun t ht =>
    ⟨by rw [hs t (hne t ht)]; exact ht, Function.update_of_ne (hne t ht) _ _⟩
  have key : ∀ {p : Cell → Nat → Prop}, (∀ c, s.fd c ≠ 0 → p c (s.fd c)) → p b v → ∀ c, s'.fd c ≠ 0 → p c (s'.fd c) := by
    intro p h1 h2 c hc
    by_cases e : c = b
    · subst e; rw [hs2]; exact h2
    · rw [hs c e] at hc ⊢; exact h1 c hc
  refine ⟨?_, ?_, ?_, ?_, ?_, ?_, ?_, ?_, hw⟩
  · exact key (p := fun c _ => InGrid w h c) I.grid hin
  · exact key (p := fun c n => dem c = nd → n = 255) I.none hnd
  · exact key (p := fun c n => dem c ≠ nd → n ∈ dirs .D8) I.dir (fun h1 => (hd h1).1)
  · intro c hc
    by_cases e : c = b
    · subst e; rw [Function.update_self]; omega
    · rw [Function.update_of_ne e]; rw [hs c e] at hc; have := I.time c hc; omega
  · intro c hc hc2
    by_cases e : c = b
    · subst e
      unfold TFGood
      rw [hs2]
      rcases (hd hc2).2.2.2.2 with h1 | h1 | h1 | ⟨h1, h2⟩
      · exact Or.inl h1
      · exact Or.inr (Or.inl h1)
      · exact Or.inr (Or.inr (Or.inl h1))
      · obtain ⟨h3, h4⟩ := he3 _ h2
        refine Or.inr (Or.inr (Or.inr ⟨h1, h3, ?_⟩))
        rw [h4, Function.update_self]
        exact I.time _ h2
    · rw [hs c e] at hc
      exact (I.good c hc hc2).congr (hs c e) (Function.update_of_ne e _ _) he3
  · exact key (p := fun c _ => dem c ≠ nd → TFReach w h dem nd c) I.reach (fun h1 => (hd h1).2.1)
  · exact key (p := fun c n => dem c ≠ nd → OnEdge w h c → ¬InGrid w h (nbr .D8 c n)) I.edge (fun h1 => (hd h1).2.2.1)
  · exact key (p := fun c n => dem c ≠ nd → ¬OnEdge w h c → (∀ b, ¬TFLevel w h dem nd c b) → TFLow w h dem nd c n) I.steep
      (fun h1 => (hd h1).2.2.2.1)

/-- The state of `ProcessFlat` while the neighbours of `c` are looked at. -/
structure TFFold (flat : E) (c : Cell) (m : Nat) (s0 s : TFS) : Prop where
  inv : ∃ r k, TFInv w h dem nd r k s
  closed : TFClosed w h dem nd (some c) s
  queue : TFQueue dem flat s
  here : s.fd c ≠ 0
  count : unflagged w h (fun x => decide (s.fd x ≠ 0)) + s.q.length = m
  mono : ∀ x, s0.fd x ≠ 0 → s.fd x ≠ 0

theorem adj_ne {a b : Cell} (hab : Adj .D8 a b) : a ≠ b := hab.1

theorem unflagged_assign {fd : Cell → Nat} {b : Cell} {v : Nat} (hin : InGrid w h b) (hb : fd b = 0) (hv : v ≠ 0) :
    unflagged w h (fun x => decide (Function.update fd b v x ≠ 0)) + 1 = unflagged w h (fun x => decide (fd x ≠ 0)) := by
  have h1 := unflagged_update (w := w) (h := h) (f := fun x => decide (fd x ≠ 0)) hin (by simp [hb])
  have h2 : (fun x => decide (Function.update fd b v x ≠ 0)) = Function.update (fun x => decide (fd x ≠ 0)) b true := by
    funext x
    by_cases e : x = b
    · subst e; simp [hv]
    · simp [Function.update_of_ne e]
  rw [h2]
  exact h1

theorem tfTouch_fold {flat : E} {c : Cell} {m : Nat} {s0 s : TFS} (hflat : dem c = flat) (hfn : flat ≠ nd)
    (F : TFFold (w := w) (h := h) (dem := dem) (nd := nd) flat c m s0 s) {n : Nat} (hn : n ∈ dirs .D8) :
    TFFold (w := w) (h := h) (dem := dem) (nd := nd) flat c m s0 (tfTouch w h dem nd flat c s n) ∧
    (TFLevel w h dem nd c (nbr .D8 c n) → ¬OnEdge w h (nbr .D8 c n) → (tfTouch w h dem nd flat c s n).fd (nbr .D8 c n) ≠ 0) ∧
    (∀ x, s.fd x ≠ 0 → (tfTouch w h dem nd flat c s n).fd x ≠ 0) := by
  unfold tfTouch
  dsimp only
  split_ifs with h1 h2 h3 h4 h5
  · exact ⟨F, fun hl _ => absurd hl.2.1 (inGrid_false.1 h1), fun _ hx => hx⟩
  · have hin : InGrid w h (nbr .D8 c n) := by
      by_contra hc; exact h1 (inGrid_false.2 hc)
    exact ⟨F, fun _ he => absurd ((isEdgeCell_iff hin).1 h2) he, fun _ hx => hx⟩
  · exact ⟨F, fun _ _ => h3, fun _ hx => hx⟩
  · exact ⟨F, fun hl _ => absurd (hl.2.2.2.trans hflat) h4, fun _ hx => hx⟩
  · push Not at h4
    rcases h5 with h5 | h5
    · exact absurd h4 (ne_of_lt h5)
    · exact absurd (h4.symm.trans h5) hfn
  · push Not at h3 h4
    have hin : InGrid w h (nbr .D8 c n) := by
      by_contra hc; exact h1 (inGrid_false.2 hc)
    have hne : ¬OnEdge w h (nbr .D8 c n) := fun he => h2 ((isEdgeCell_iff hin).2 he)
    obtain ⟨r, k, I⟩ := F.inv
    obtain ⟨hi1, hi2⟩ := nbr_dinverse (c := c) hn
    have hadj : Adj .D8 c (nbr .D8 c n) := nbr_adj hn
    have hcn : dem c ≠ nd := by rw [hflat]; exact hfn
    have hcin := I.grid c F.here
    have hv : dinverse .D8 n ≠ 0 := by have := (mem_dirs.1 hi1).1; omega
    have hinv2 : dinverse .D8 (dinverse .D8 n) = n := by
      have hn' := mem_dirs.1 hn
      have : n = 1 ∨ n = 2 ∨ n = 3 ∨ n = 4 ∨ n = 5 ∨ n = 6 ∨ n = 7 ∨ n = 8 := by simp only [nmax] at hn'; omega
      rcases this with rfl | rfl | rfl | rfl | rfl | rfl | rfl | rfl <;> decide
    have hwarn : (s.fd c == n) = false := by
      rw [beq_eq_false_iff_ne]
      intro e
      have hg := I.good c F.here hcn
      unfold TFGood at hg
      rw [e] at hg
      rcases hg with g | g | g | g
      · exact g hin
      · exact hfn (h4.symm.trans g)
      · rw [h4, hflat] at g; exact lt_irrefl _ g
      · exact g.2.1 h3
    have hmono : ∀ x, s.fd x ≠ 0 → Function.update s.fd (nbr .D8 c n) (dinverse .D8 n) x ≠ 0 := by
      intro x hx
      by_cases e : x = nbr .D8 c n
      · subst e; rw [Function.update_self]; exact hv
      · rw [Function.update_of_ne e]; exact hx
    refine ⟨⟨⟨_, _, I.assign h3 hin hv rfl (by dsimp only; rw [I.warn, hinv2, hwarn]; rfl) ?_ ?_⟩, ?_, ?_, hmono c F.here, ?_, ?_⟩, ?_, hmono⟩
    · intro e; exact absurd (h4.symm.trans e) hfn
    · intro hbn
      refine ⟨hi1, ?_, fun he => absurd he hne, fun _ hno => ?_, ?_⟩
      · obtain ⟨d, hd1, hd2⟩ := I.reach c F.here hcn
        exact ⟨d, ReflTransGen.head ⟨hadj.symm, hcin, hcn, by rw [h4, hflat]⟩ hd1, hd2⟩
      · exact absurd ⟨hadj.symm, hcin, hcn, by rw [h4, hflat]⟩ (hno c)
      · rw [hi2]
        exact Or.inr (Or.inr (Or.inr ⟨by rw [h4, hflat], F.here⟩))
    · intro a b ha hda hl hb hb0
      dsimp only at ha hb0 ⊢
      by_cases ea : a = nbr .D8 c n
      · left; rw [ea]; simp
      · rw [Function.update_of_ne ea] at ha
        by_cases eb : b = nbr .D8 c n
        · subst eb; rw [Function.update_self] at hb0; exact absurd hb0 hv
        · rw [Function.update_of_ne eb] at hb0
          rcases F.closed a b ha hda hl hb hb0 with g | g
          · left; simp [g]
          · exact Or.inr g
    · intro a ha
      dsimp only at ha ⊢
      rw [List.mem_append, List.mem_singleton] at ha
      rcases ha with ha | ha
      · exact ⟨hmono a (F.queue a ha).1, (F.queue a ha).2⟩
      · subst ha; rw [Function.update_self]; exact ⟨hv, h4⟩
    · dsimp only
      have := unflagged_assign (w := w) (h := h) (fd := s.fd) hin h3 hv
      have h8 := F.count
      rw [List.length_append]
      simp only [List.length_singleton]
      omega
    · intro x hx; exact hmono x (F.mono x hx)
    · intro _ _; dsimp only; rw [Function.update_self]; exact hv

/-- The state of `ProcessFlat` between iterations. -/
structure TFLoop (flat : E) (s0 s : TFS) : Prop where
  inv : ∃ r k, TFInv w h dem nd r k s
  closed : TFClosed w h dem nd none s
  queue : TFQueue dem flat s
  mono : ∀ x, s0.fd x ≠ 0 → s.fd x ≠ 0

theorem tfStep_loop {flat : E} (hfn : flat ≠ nd) {s0 s s' : TFS} (L : TFLoop (w := w) (h := h) (dem := dem) (nd := nd) flat s0 s)
    (hs : tfStep w h dem nd flat s = some s') :
    TFLoop (w := w) (h := h) (dem := dem) (nd := nd) flat s0 s' ∧
      unflagged w h (fun x => decide (s'.fd x ≠ 0)) + s'.q.length < unflagged w h (fun x => decide (s.fd x ≠ 0)) + s.q.length := by
  unfold tfStep at hs
  cases hq : s.q with
  | nil => rw [hq] at hs; cases hs
  | cons c rest =>
    rw [hq] at hs
    simp only [Option.some.injEq] at hs
    obtain ⟨hc1, hc2⟩ := L.queue c (by rw [hq]; simp)
    obtain ⟨r, k, I⟩ := L.inv
    have F0 : TFFold (w := w) (h := h) (dem := dem) (nd := nd) flat c (unflagged w h (fun x => decide (s.fd x ≠ 0)) + rest.length) s0
        { s with q := rest } := by
      refine ⟨⟨r, k, ⟨I.grid, I.none, I.dir, I.time, I.good, I.reach, I.edge, I.steep, I.warn⟩⟩, ?_, ?_, hc1, rfl, L.mono⟩
      · intro a b ha hda hl hb hb0
        rcases L.closed a b ha hda hl hb hb0 with g | g
        · rw [hq, List.mem_cons] at g
          rcases g with rfl | g
          · exact Or.inr rfl
          · exact Or.inl g
        · cases g
      · intro a ha; exact L.queue a (by rw [hq]; exact List.mem_cons_of_mem _ ha)
    obtain ⟨F, hR, -⟩ := foldl_inv (f := tfTouch w h dem nd flat c)
      (fun s' => TFFold (w := w) (h := h) (dem := dem) (nd := nd) flat c (unflagged w h (fun x => decide (s.fd x ≠ 0)) + rest.length) s0 s')
      (fun n s => TFLevel w h dem nd c (nbr .D8 c n) → ¬OnEdge w h (nbr .D8 c n) → s.fd (nbr .D8 c n) ≠ 0)
      (dirs .D8) { s with q := rest }
      (fun s1 n hn F => ⟨(tfTouch_fold hc2 hfn F hn).1, (tfTouch_fold hc2 hfn F hn).2.1⟩)
      (fun s1 n m hn F hm hl he => (tfTouch_fold hc2 hfn F hn).2.2 _ (hm hl he)) F0
    rw [hs] at F hR
    refine ⟨⟨F.inv, ?_, F.queue, F.mono⟩, ?_⟩
    · intro a b ha hda hl hb hb0
      rcases F.closed a b ha hda hl hb hb0 with g | g
      · exact Or.inl g
      · obtain rfl := Option.some.inj g
        obtain ⟨n, hn, rfl⟩ := adj_iff_nbr.1 hl.1
        exact absurd hb0 (hR n hn hl hb)
    · rw [F.count, List.length_cons]; omega

/-- `ProcessFlat` ends with an empty queue. -/
theorem processFlat_spec {c0 : Cell} {s : TFS} (hin : InGrid w h c0) (hc0 : s.fd c0 ≠ 0) (hdata : dem c0 ≠ nd)
    (hI : ∃ r k, TFInv w h dem nd r k s) (hcl : TFClosed w h dem nd (some c0) { s with q := [] }) :
    let s' := processFlat w h dem nd c0 s
    (∃ r k, TFInv w h dem nd r k s') ∧ TFClosed w h dem nd none s' ∧ s'.q = [] ∧ ∀ x, s.fd x ≠ 0 → s'.fd x ≠ 0 := by
  have L0 : TFLoop (w := w) (h := h) (dem := dem) (nd := nd) (dem c0) s { s with q := [c0] } := by
    obtain ⟨r, k, I⟩ := hI
    refine ⟨⟨r, k, ⟨I.grid, I.none, I.dir, I.time, I.good, I.reach, I.edge, I.steep, I.warn⟩⟩, ?_, ?_, fun _ hx => hx⟩
    · intro a b ha hda hl hb hb0
      rcases hcl a b ha hda hl hb hb0 with g | g
      · cases g
      · left; rw [Option.some.inj g]; simp
    · intro a ha
      rw [List.mem_singleton] at ha
      subst ha
      exact ⟨hc0, rfl⟩
  obtain ⟨L, hend⟩ := loop_spec (step := tfStep w h dem nd (dem c0)) (TFLoop (w := w) (h := h) (dem := dem) (nd := nd) (dem c0) s)
    (fun s => unflagged w h (fun x => decide (s.fd x ≠ 0)) + s.q.length) (fun s1 s2 L hs => tfStep_loop hdata L hs) (w * h + 1) { s with q := [c0] } L0
    (by have := unflagged_le w h (fun x => decide (s.fd x ≠ 0)); simp only [List.length_singleton]; omega)
  refine ⟨L.inv, L.closed, ?_, L.mono⟩
  unfold processFlat
  unfold tfStep at hend
  split at hend
  · assumption
  · cases hend

/-! The scan of the neighbours -/

/-- What the scan knows after the neighbours in directions `done`. -/
structure TFScanInv (c : Cell) (done : List Nat) (v : TFScan E) : Prop where
  flat : v.flat = true ↔ ∃ n ∈ done, TFLevel w h dem nd c (nbr .D8 c n)
  zero : v.n = 0 → v.drains = false ∧ v.e = .max ∧ ∀ n ∈ done, InGrid w h (nbr .D8 c n) ∧ dem (nbr .D8 c n) ≠ nd ∧ dem c ≤ dem (nbr .D8 c n)
  some : v.n ≠ 0 → v.n ∈ done ∧ v.drains = true ∧
    (((¬InGrid w h (nbr .D8 c v.n) ∨ dem (nbr .D8 c v.n) = nd) ∧ v.e = .lowest) ∨
      (dem (nbr .D8 c v.n) < dem c ∧ v.e = .elev (dem (nbr .D8 c v.n)) ∧
        ∀ n ∈ done, InGrid w h (nbr .D8 c n) ∧ dem (nbr .D8 c n) ≠ nd ∧ dem (nbr .D8 c v.n) ≤ dem (nbr .D8 c n)))

theorem tfScan_step {c : Cell} {done : List Nat} {v : TFScan E} (I : TFScanInv (w := w) (h := h) (dem := dem) (nd := nd) c done v) {n : Nat}
    (hn : n ∈ dirs .D8) : TFScanInv (w := w) (h := h) (dem := dem) (nd := nd) c (done ++ [n]) (tfScan w h dem nd c v n) := by
  have hn0 : n ≠ 0 := by have := (mem_dirs.1 hn).1; omega
  have hmem : n ∈ done ++ [n] := by simp
  have hmem' : ∀ m, m ∈ done → m ∈ done ++ [n] := fun m hm => by simp [hm]
  have hlift : (∃ m ∈ done ++ [n], TFLevel w h dem nd c (nbr .D8 c m)) ↔
      (∃ m ∈ done, TFLevel w h dem nd c (nbr .D8 c m)) ∨ TFLevel w h dem nd c (nbr .D8 c n) := by
    constructor
    · rintro ⟨m, hm, hl⟩
      rw [List.mem_append, List.mem_singleton] at hm
      rcases hm with hm | rfl
      · exact Or.inl ⟨m, hm, hl⟩
      · exact Or.inr hl
    · rintro (⟨m, hm, hl⟩ | hl)
      · exact ⟨m, hmem' m hm, hl⟩
      · exact ⟨n, hmem, hl⟩
  unfold tfScan
  dsimp only
  split_ifs with h1 h2 h3
  · have h1' : ¬InGrid w h (nbr .D8 c n) ∨ dem (nbr .D8 c n) = nd := h1.imp inGrid_false.1 id
    refine ⟨?_, fun e => absurd e hn0, fun _ => ⟨hmem, rfl, Or.inl ⟨h1', rfl⟩⟩⟩
    dsimp only
    rw [I.flat, hlift]
    constructor
    · exact Or.inl
    · rintro (g | g)
      · exact g
      · rcases h1' with g' | g'
        · exact absurd g.2.1 g'
        · exact absurd g' g.2.2.1
  · rw [not_or] at h1
    have hin : InGrid w h (nbr .D8 c n) := by by_contra hc; exact h1.1 (inGrid_false.2 hc)
    refine ⟨?_, ?_, ?_⟩
    · dsimp only
      rw [hlift]
      exact ⟨fun _ => Or.inr ⟨nbr_adj hn, hin, h1.2, h2⟩, fun _ => rfl⟩
    · intro e
      obtain ⟨g1, g2, g3⟩ := I.zero e
      refine ⟨g1, g2, ?_⟩
      intro m hm
      rw [List.mem_append, List.mem_singleton] at hm
      rcases hm with hm | rfl
      · exact g3 m hm
      · exact ⟨hin, h1.2, h2.ge⟩
    · intro e
      obtain ⟨g1, g2, g3⟩ := I.some e
      refine ⟨hmem' _ g1, g2, ?_⟩
      rcases g3 with g3 | ⟨g3, g4, g5⟩
      · exact Or.inl g3
      · refine Or.inr ⟨g3, g4, ?_⟩
        intro m hm
        rw [List.mem_append, List.mem_singleton] at hm
        rcases hm with hm | rfl
        · exact g5 m hm
        · exact ⟨hin, h1.2, by rw [h2]; exact g3.le⟩
  · rw [not_or] at h1
    have hin : InGrid w h (nbr .D8 c n) := by by_contra hc; exact h1.1 (inGrid_false.2 hc)
    refine ⟨?_, fun e => absurd e hn0, fun _ => ⟨hmem, rfl, Or.inr ⟨h3.1, rfl, ?_⟩⟩⟩
    · dsimp only
      rw [I.flat, hlift]
      exact ⟨Or.inl, fun g => g.resolve_right (fun g => h2 g.2.2.2)⟩
    · intro m hm
      rw [List.mem_append, List.mem_singleton] at hm
      rcases hm with hm | rfl
      · by_cases e : v.n = 0
        · obtain ⟨g1, g2, g3⟩ := (I.zero e).2.2 m hm
          exact ⟨g1, g2, h3.1.le.trans g3⟩
        · obtain ⟨-, -, g⟩ := I.some e
          rcases g with ⟨-, g⟩ | ⟨g3, g4, g5⟩
          · have := h3.2; rw [g] at this; cases this
          · have := h3.2
            rw [g4] at this
            simp only [tfBelow, decide_eq_true_eq] at this
            obtain ⟨k1, k2, k3⟩ := g5 m hm
            exact ⟨k1, k2, this.le.trans k3⟩
      · exact ⟨hin, h1.2, le_refl _⟩
  · rw [not_or] at h1
    have hin : InGrid w h (nbr .D8 c n) := by by_contra hc; exact h1.1 (inGrid_false.2 hc)
    refine ⟨?_, ?_, ?_⟩
    · rw [I.flat, hlift]
      exact ⟨Or.inl, fun g => g.resolve_right (fun g => h2 g.2.2.2)⟩
    · intro e
      obtain ⟨g1, g2, g3⟩ := I.zero e
      refine ⟨g1, g2, ?_⟩
      intro m hm
      rw [List.mem_append, List.mem_singleton] at hm
      rcases hm with hm | rfl
      · exact g3 m hm
      · refine ⟨hin, h1.2, ?_⟩
        by_contra hlt
        exact h3 ⟨not_le.1 hlt, by rw [g2]; rfl⟩
    · intro e
      obtain ⟨g1, g2, g3⟩ := I.some e
      refine ⟨hmem' _ g1, g2, ?_⟩
      rcases g3 with g3 | ⟨g3, g4, g5⟩
      · exact Or.inl g3
      · refine Or.inr ⟨g3, g4, ?_⟩
        intro m hm
        rw [List.mem_append, List.mem_singleton] at hm
        rcases hm with hm | rfl
        · exact g5 m hm
        · refine ⟨hin, h1.2, ?_⟩
          by_contra hlt
          rw [not_le] at hlt
          exact h3 ⟨hlt.trans g3, by rw [g4]; simp only [tfBelow, decide_eq_true_eq]; exact hlt⟩

theorem look_spec (c : Cell) : TFScanInv (w := w) (h := h) (dem := dem) (nd := nd) c (dirs .D8) (tfLook w h dem nd c) := by
  have key : ∀ (L done : List Nat) (v : TFScan E), (∀ n ∈ L, n ∈ dirs .D8) → TFScanInv (w := w) (h := h) (dem := dem) (nd := nd) c done v →
      TFScanInv (w := w) (h := h) (dem := dem) (nd := nd) c (done ++ L) (L.foldl (tfScan w h dem nd c) v) := by
    intro L
    induction L with
    | nil => intro done v _ I; simpa using I
    | cons n L ih =>
      intro done v hL I
      have := ih (done ++ [n]) _ (fun m hm => hL m (by simp [hm])) (tfScan_step I (hL n (by simp)))
      rw [List.append_assoc] at this
      exact this
  have := key (dirs .D8) [] { drains := false, flat := false, n := 0, e := .max } (fun _ hn => hn)
    ⟨by simp, fun _ => ⟨rfl, rfl, by simp⟩, fun e => absurd rfl e⟩
  simpa [tfLook] using this

/-- `d8EdgeFlow` points out of the raster. -/
theorem tfEdgeFlow_out {c : Cell} (he : OnEdge w h c) : tfEdgeFlow w h c ∈ dirs .D8 ∧ ¬InGrid w h (nbr .D8 c (tfEdgeFlow w h c)) := by
  obtain ⟨x, y⟩ := c
  obtain ⟨⟨h1, h2, h3, h4⟩, h5⟩ := he
  dsimp only at h1 h2 h3 h4 h5
  unfold tfEdgeFlow
  dsimp only
  split_ifs <;> first
    | (refine ⟨by decide, ?_⟩; simp only [nbr, dx, dy, d8x, d8y, InGrid, List.getD_cons_succ, List.getD_cons_zero]; omega)
    | omega

theorem drain_of_look {c : Cell} (hv : (tfLook w h dem nd c).n = 0) : ¬TFDrain w h dem nd c := by
  rintro ⟨b, hadj, hb⟩
  obtain ⟨n, hn, rfl⟩ := adj_iff_nbr.1 hadj
  obtain ⟨g1, g2, g3⟩ := ((look_spec (w := w) (h := h) (dem := dem) (nd := nd) c).zero hv).2.2 n hn
  rcases hb with hb | hb | hb
  · exact hb g1
  · exact g2 hb
  · exact absurd hb (not_lt.2 g3)

theorem drain_of_edge {c : Cell} (he : OnEdge w h c) : TFDrain w h dem nd c :=
  ⟨_, nbr_adj (tfEdgeFlow_out he).1, Or.inl (tfEdgeFlow_out he).2⟩

/-- The state between cells. -/
structure TFMain (s : TFS) : Prop where
  inv : ∃ r k, TFInv w h dem nd r k s
  closed : TFClosed w h dem nd none s
  q : s.q = []

theorem tfCell_main {s : TFS} (M : TFMain (w := w) (h := h) (dem := dem) (nd := nd) s) {c : Cell} (hin : InGrid w h c) :
    TFMain (w := w) (h := h) (dem := dem) (nd := nd) (tfCell w h dem nd s c) ∧
    ((dem c = nd ∨ TFDrain w h dem nd c) → (tfCell w h dem nd s c).fd c ≠ 0) ∧
    ∀ x, s.fd x ≠ 0 → (tfCell w h dem nd s c).fd x ≠ 0 := by
  obtain ⟨r, k, I⟩ := M.inv
  unfold tfCell
  by_cases h1 : s.fd c ≠ 0
  · rw [if_pos h1]; exact ⟨M, fun _ => h1, fun _ hx => hx⟩
  rw [if_neg h1]
  by_cases h2 : dem c = nd
  · rw [if_pos h2]
    push Not at h1
    have hmono : ∀ x, s.fd x ≠ 0 → Function.update s.fd c 255 x ≠ 0 := by
      intro x hx
      by_cases e : x = c
      · subst e; rw [Function.update_self]; decide
      · rw [Function.update_of_ne e]; exact hx
    refine ⟨⟨⟨_, _, I.assign h1 hin (v := 255) (by decide) rfl I.warn (fun _ => rfl) (fun hd => absurd h2 hd)⟩, ?_, M.q⟩, ?_, hmono⟩
    · intro a b ha hda hl hb hb0
      dsimp only at ha hb0
      rw [Function.update_of_ne (by rintro rfl; exact hda h2)] at ha
      rw [Function.update_of_ne (by rintro rfl; exact hl.2.2.1 h2)] at hb0
      exact M.closed a b ha hda hl hb hb0
    · intro _; dsimp only; rw [Function.update_self]; decide
  · rw [if_neg h2]
    push Not at h1
    have hv := look_spec (w := w) (h := h) (dem := dem) (nd := nd) c
    set v := tfLook w h dem nd c with hvdef
    dsimp only
    by_cases h0 : v.n = 0
    · have hnd := drain_of_look h0
      have hne : ¬isEdgeCell w h c = true := fun he => hnd (drain_of_edge ((isEdgeCell_iff hin).1 he))
      have hdr : ¬(v.drains = true ∧ v.flat = true) := by rw [(hv.zero h0).1]; simp
      rw [if_neg hdr, tfEdge, if_neg hne, tfLowest, if_pos h0]
      exact ⟨M, fun g => absurd g (by rintro (g | g); exacts [h2 g, hnd g]), fun _ hx => hx⟩
    · obtain ⟨g1, g2, g3⟩ := hv.some h0
      have hdrain : TFDrain w h dem nd c := by
        refine ⟨_, nbr_adj g1, ?_⟩
        rcases g3 with ⟨g3, -⟩ | ⟨g3, -⟩
        · exact g3.imp id Or.inl
        · exact Or.inr (Or.inr g3)
      -- the direction written
      let d := if isEdgeCell w h c = true then tfEdgeFlow w h c else v.n
      let s2 : TFS := { fd := Function.update s.fd c d, q := [], warn := false }
      have hwarn : (inGrid w h (nbr .D8 c v.n) && Function.update s.fd c v.n (nbr .D8 c v.n) == dinverse .D8 v.n) = false := by
        rw [Bool.and_eq_false_iff]
        by_cases hi : InGrid w h (nbr .D8 c v.n)
        · right
          rw [beq_eq_false_iff_ne, Function.update_of_ne (adj_ne (nbr_adj g1)).symm]
          intro e
          obtain ⟨i1, i2⟩ := nbr_dinverse (c := c) g1
          have hb0 : s.fd (nbr .D8 c v.n) ≠ 0 := by rw [e]; have := (mem_dirs.1 i1).1; omega
          rcases g3 with ⟨g3, -⟩ | ⟨g3, -, g4⟩
          · rcases g3 with g3 | g3
            · exact g3 hi
            · have := I.none _ hb0 g3
              rw [e] at this
              have h9 := (mem_dirs.1 i1).2
              simp only [nmax] at h9
              omega
          · have hg := I.good _ hb0 (g4 _ g1).2.1
            unfold TFGood at hg
            rw [e, i2] at hg
            rcases hg with g | g | g | g
            · exact g hin
            · exact h2 g
            · exact absurd g (not_lt.2 g3.le)
            · exact absurd g.1 (ne_of_gt g3)
        · left; exact inGrid_false.2 hi
      have hs2 : tfEdge w h c (tfLowest w h c v.n s) = s2 := by
        simp only [tfEdge, tfLowest, if_neg h0, hwarn, I.warn, M.q, Bool.or_false, s2, d]
        split_ifs
        · rw [Function.update_idem]
        · rfl
      rw [hs2]
      have hd : d ∈ dirs .D8 ∧ (OnEdge w h c → ¬InGrid w h (nbr .D8 c d)) ∧ (¬OnEdge w h c → d = v.n) := by
        by_cases he : isEdgeCell w h c = true
        · have he' := (isEdgeCell_iff hin).1 he
          simp only [d, if_pos he]
          exact ⟨(tfEdgeFlow_out he').1, fun _ => (tfEdgeFlow_out he').2, fun g => absurd he' g⟩
        · simp only [d, if_neg he]
          exact ⟨g1, fun g => absurd ((isEdgeCell_iff hin).2 g) he, fun _ => trivial⟩
      have hd0 : d ≠ 0 := by have := (mem_dirs.1 hd.1).1; omega
      have I2 : TFInv w h dem nd (Function.update r c k) (k + 1) s2 := by
        refine I.assign h1 hin hd0 rfl rfl (fun e => absurd e h2) (fun _ => ⟨hd.1, ⟨c, ReflTransGen.refl, hdrain⟩, hd.2.1, ?_, ?_⟩)
        · intro he _
          rw [hd.2.2 he]
          rcases g3 with ⟨g3, -⟩ | ⟨g3, -, g4⟩
          · exact Or.inl g3
          · refine Or.inr ⟨g3, ?_⟩
            intro b hb
            obtain ⟨n, hn, rfl⟩ := adj_iff_nbr.1 hb
            exact g4 n hn
        · by_cases he : OnEdge w h c
          · exact Or.inl (hd.2.1 he)
          · rw [hd.2.2 he]
            rcases g3 with ⟨g3 | g3, -⟩ | ⟨g3, -⟩
            · exact Or.inl g3
            · exact Or.inr (Or.inl g3)
            · exact Or.inr (Or.inr (Or.inl g3))
      have hmono : ∀ x, s.fd x ≠ 0 → s2.fd x ≠ 0 := by
        intro x hx
        by_cases e : x = c
        · subst e; simp only [s2, Function.update_self]; exact hd0
        · simp only [s2, Function.update_of_ne e]; exact hx
      have hc2 : s2.fd c ≠ 0 := by simp only [s2, Function.update_self]; exact hd0
      have hcl : TFClosed w h dem nd (some c) s2 := by
        intro a b ha hda hl hb hb0
        by_cases ea : a = c
        · right; rw [ea]
        · simp only [s2, Function.update_of_ne ea] at ha
          by_cases eb : b = c
          · subst eb; exact absurd hb0 hc2
          · simp only [s2, Function.update_of_ne eb] at hb0
            have := M.closed a b ha hda hl hb hb0
            rw [M.q] at this
            rcases this with g | g <;> cases g
      by_cases hfl : v.drains = true ∧ v.flat = true
      · rw [if_pos hfl]
        obtain ⟨k1, k2, k3, k4⟩ := processFlat_spec hin hc2 h2 ⟨_, _, I2⟩ hcl
        exact ⟨⟨k1, k2, k3⟩, fun _ => k4 c hc2, fun x hx => k4 x (hmono x hx)⟩
      · rw [if_neg hfl]
        have hfl' : v.flat ≠ true := fun g => hfl ⟨g2, g⟩
        refine ⟨⟨⟨_, _, I2⟩, ?_, rfl⟩, fun _ => hc2, hmono⟩
        intro a b ha hda hl hb hb0
        rcases hcl a b ha hda hl hb hb0 with g | g
        · exact Or.inl g
        · exfalso
          obtain rfl := Option.some.inj g
          obtain ⟨n, hn, rfl⟩ := adj_iff_nbr.1 hl.1
          exact hfl' (hv.flat.2 ⟨n, hn, hl⟩)

theorem tfRun_spec {order : List Cell} (ho : ∀ c ∈ order, InGrid w h c) :
    TFMain (w := w) (h := h) (dem := dem) (nd := nd) (tfRun w h dem nd order) ∧
    ∀ c ∈ order, (dem c = nd ∨ TFDrain w h dem nd c) → (tfRun w h dem nd order).fd c ≠ 0 := by
  obtain ⟨M, hR, -⟩ := foldl_inv (f := tfCell w h dem nd) (TFMain (w := w) (h := h) (dem := dem) (nd := nd))
    (fun c s => (dem c = nd ∨ TFDrain w h dem nd c) → s.fd c ≠ 0) order { fd := fun _ => 0, q := [], warn := false }
    (fun s c hc M => ⟨(tfCell_main M (ho c hc)).1, (tfCell_main M (ho c hc)).2.1⟩)
    (fun s c b hc M hb g => (tfCell_main M (ho c hc)).2.2 b (hb g))
    ⟨⟨fun _ => 0, 0, by constructor <;> simp⟩, by intro a b ha; exact absurd rfl ha, rfl⟩
  exact ⟨M, hR⟩

end RichDEM
