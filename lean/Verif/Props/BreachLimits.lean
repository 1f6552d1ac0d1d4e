/-
Property theorems C93: the limits of selective and constrained breaching
(include/richdem/depressions/Lindsay2016.hpp:304-358).
-/
import Verif.Props.Breach
import Mathlib.Algebra.Order.Group.Defs
import Mathlib.Logic.Relation

namespace RichDEM

open Relation (ReflTransGen)

variable {E : Type*} [LinearOrder E]

/-! ### Specification -/

/-- The cells to dig through from a cell `o` on to reach level `v`, one step of `dn` lower on each: they follow the
back-links and end where there is none or where the ground is lower already. -/
inductive DigPath (dn : E → E) (dem : Cell → E) (back : Cell → Option Cell) : Option Cell → E → List Cell → Prop
  | edge (v : E) : DigPath dn dem back none v []
  | lower (x : Cell) (v : E) : dem x < v → DigPath dn dem back (some x) v []
  | dig (x : Cell) (v : E) (p : List Cell) : v ≤ dem x → DigPath dn dem back (back x) (dn v) p →
      DigPath dn dem back (some x) v (x :: p)

/-- The path is not longer than `maxlen` cells and none has to be lowered by more than `maxdepth`. -/
def WithinLimits [Sub E] (dn : E → E) (maxlen : Nat) (maxdepth : E) (dem : Cell → E) (v : E) (p : List Cell) : Prop :=
  p.length ≤ maxlen ∧ ∀ (i : Nat) (x : Cell), p[i]? = some x → dem x - dn^[i] v ≤ maxdepth

/-- The cells of the path are lowered to `v`, `dn v`, ..., all others are unchanged. -/
def CutAlong (dn : E → E) (v : E) (p : List Cell) (dem dem' : Cell → E) : Prop :=
  (∀ (i : Nat) (x : Cell), p[i]? = some x → dem' x = dn^[i] v ∧ dem' x ≤ dem x) ∧ ∀ x, x ∉ p → dem' x = dem x

/-- What selective breaching does with a pit: the path is dug if it is within the limits, else nothing is changed. -/
def Selective [Sub E] (t : Topo) (dn : E → E) (maxlen : Nat) (maxdepth : E) (back : Cell → Option Cell) (c : Cell)
    (dem dem' : Cell → E) : Prop :=
  ∃ p, DigPath dn dem back (some c) (dem c) (c :: p) ∧ (c :: p).Nodup ∧ (c :: p).IsChain (Adj t) ∧
    (WithinLimits dn maxlen maxdepth dem (dem c) (c :: p) → CutAlong dn (dem c) (c :: p) dem dem') ∧
    (¬ WithinLimits dn maxlen maxdepth dem (dem c) (c :: p) → dem' = dem)

/-! ### The three loops -/

variable {dn : E → E} {dem : Cell → E} {back : Cell → Option Cell}

theorem DigPath.congr {dem' : Cell → E} {o : Option Cell} {v : E} {p : List Cell} (hp : DigPath dn dem back o v p)
    (T : Cell → Nat) (hT : ∀ c p, back c = some p → T p < T c)
    (he : ∀ x y, o = some y → T x ≤ T y → dem' x = dem x) : DigPath dn dem' back o v p := by
  induction hp with
  | edge v => exact .edge v
  | lower x v hlt => exact .lower x v (by rw [he x x rfl le_rfl]; exact hlt)
  | dig x v p hle _ ih =>
    refine .dig x v p (by rw [he x x rfl le_rfl]; exact hle) (ih ?_)
    intro z y hy hzy
    exact he z x rfl (hzy.trans (hT x y hy).le)

theorem digPath_exists (T : Cell → Nat) (hT : ∀ c p, back c = some p → T p < T c) (dn : E → E) (dem : Cell → E) :
    ∀ (k : Nat) (o : Option Cell) (v : E), (∀ x, o = some x → T x < k) →
      ∃ p, DigPath dn dem back o v p ∧ p.length ≤ k ∧ (∀ x ∈ p, ∀ y, o = some y → T x ≤ T y) ∧ p.Nodup := by
  intro k
  induction k with
  | zero =>
    intro o v hk
    cases o with
    | none => exact ⟨[], .edge v, le_rfl, by simp, by simp⟩
    | some x => exact absurd (hk x rfl) (by omega)
  | succ k ih =>
    intro o v hk
    cases o with
    | none => exact ⟨[], .edge v, by simp, by simp, by simp⟩
    | some x =>
      by_cases hle : v ≤ dem x
      · obtain ⟨p, h1, h2, h3, h4⟩ := ih (back x) (dn v) (fun y hy => by have := hT x y hy; have := hk x rfl; omega)
        have hlt : ∀ y ∈ p, T y < T x := by
          intro y hy
          cases hb : back x with
          | none => rw [hb] at h1; cases h1; cases hy
          | some z => have := h3 y hy z hb; have := hT x z hb; omega
        refine ⟨x :: p, .dig x v p hle h1, by simpa using h2, ?_, ?_⟩
        · intro y hy z hz
          cases hz
          rcases List.mem_cons.1 hy with rfl | hy
          · exact le_rfl
          · exact (hlt y hy).le
        · refine List.nodup_cons.2 ⟨fun hm => lt_irrefl _ (hlt x hm), h4⟩
      · exact ⟨[], .lower x v (not_le.1 hle), by simp, by simp, by simp⟩

theorem DigPath.chain {t : Topo} {o : Option Cell} {v : E} {p : List Cell} (hp : DigPath dn dem back o v p)
    (ha : ∀ c q, back c = some q → Adj t c q) : p.IsChain (Adj t) ∧ ∀ x, p.head? = some x → o = some x := by
  induction hp with
  | edge v => simp
  | lower x v _ => simp
  | dig x v p _ _ ih =>
    refine ⟨List.isChain_cons.2 ⟨fun y hy => ha x y (ih.2 y hy), ih.1⟩, fun y hy => by simpa using hy⟩

theorem DigPath.nil_stop {o : Option Cell} {v : E} (hp : DigPath dn dem back o v []) :
    carveStep dn back ⟨dem, o, v⟩ = none := by
  cases hp with
  | edge v => rfl
  | lower x v hlt => simp only [carveStep]; rw [if_neg (not_le.2 hlt)]

theorem loop_none {S : Type*} {step : S → Option S} {s : S} (hs : step s = none) (fuel : Nat) : loop step fuel s = s := by
  cases fuel with
  | zero => rfl
  | succ n => simp only [loop, hs]

theorem carve_path (T : Cell → Nat) (hT : ∀ c p, back c = some p → T p < T c) (dn : E → E) :
    ∀ (p : List Cell) (dem : Cell → E) (o : Option Cell) (v : E) (fuel : Nat), DigPath dn dem back o v p → p.Nodup →
      p.length ≤ fuel → CutAlong dn v p dem (loop (carveStep dn back) fuel ⟨dem, o, v⟩).dem := by
  intro p
  induction p with
  | nil =>
    intro dem o v fuel hp _ _
    rw [loop_none hp.nil_stop]
    exact ⟨by simp, fun _ _ => rfl⟩
  | cons x p ih =>
    intro dem o v fuel hp hn hf
    obtain ⟨k, rfl⟩ : ∃ k, fuel = k + 1 := ⟨fuel - 1, by simp at hf; omega⟩
    cases hp with
    | dig _ _ _ hle hp =>
      have hstep : carveStep dn back ⟨dem, some x, v⟩ = some ⟨Function.update dem x v, back x, dn v⟩ := by
        simp only [carveStep]; rw [if_pos hle]
      have hp' : DigPath dn (Function.update dem x v) back (back x) (dn v) p := by
        refine hp.congr T hT fun z y hy hz => ?_
        have := hT x y hy
        exact Function.update_of_ne (by rintro rfl; omega) _ _
      obtain ⟨hx, hn'⟩ := List.nodup_cons.1 hn
      obtain ⟨k1, k2⟩ := ih _ _ _ k hp' hn' (by simpa using hf)
      simp only [loop, hstep]
      refine ⟨?_, ?_⟩
      · intro i y hy
        cases i with
        | zero =>
          obtain rfl : x = y := by simpa using hy
          rw [k2 x hx, Function.update_self]
          exact ⟨rfl, hle⟩
        | succ i =>
          have hy' : p[i]? = some y := by simpa using hy
          have hyx : y ≠ x := by rintro rfl; exact hx (List.mem_of_getElem? hy')
          obtain ⟨a, b⟩ := k1 i y hy'
          rw [Function.update_of_ne hyx] at b
          exact ⟨by rw [a, Function.iterate_succ_apply], b⟩
      · intro y hy
        rw [List.mem_cons, not_or] at hy
        rw [k2 y hy.2, Function.update_of_ne hy.1]

theorem meas_path [Sub E] (dn : E → E) (dem : Cell → E) :
    ∀ (p : List Cell) (o : Option Cell) (v b : E) (n fuel : Nat), DigPath dn dem back o v p → p.length ≤ fuel →
      (loop (measStep dn dem back) fuel ⟨o, v, b, n⟩).len = n + p.length ∧
      ∀ m, (loop (measStep dn dem back) fuel ⟨o, v, b, n⟩).depth ≤ m ↔
        b ≤ m ∧ ∀ (i : Nat) (x : Cell), p[i]? = some x → dem x - dn^[i] v ≤ m := by
  intro p
  induction p with
  | nil =>
    intro o v b n fuel hp _
    have hstop : measStep dn dem back ⟨o, v, b, n⟩ = none := by
      cases hp with
      | edge v => rfl
      | lower x v hlt => simp only [measStep]; rw [if_neg (not_le.2 hlt)]
    rw [loop_none hstop]
    simp
  | cons x p ih =>
    intro o v b n fuel hp hf
    obtain ⟨k, rfl⟩ : ∃ k, fuel = k + 1 := ⟨fuel - 1, by simp at hf; omega⟩
    cases hp with
    | dig _ _ _ hle hp =>
      have hstep : measStep dn dem back ⟨some x, v, b, n⟩ = some ⟨back x, dn v, max b (dem x - v), n + 1⟩ := by
        simp only [measStep]; rw [if_pos hle]
      obtain ⟨k1, k2⟩ := ih (back x) (dn v) (max b (dem x - v)) (n + 1) k hp (by simpa using hf)
      simp only [loop, hstep]
      refine ⟨by rw [k1, List.length_cons]; omega, fun m => ?_⟩
      rw [k2 m, max_le_iff]
      constructor
      · rintro ⟨⟨h1, h2⟩, h3⟩
        refine ⟨h1, fun i y hy => ?_⟩
        cases i with
        | zero =>
          obtain rfl : x = y := by simpa using hy
          exact h2
        | succ i => exact h3 i y (by simpa using hy)
      · rintro ⟨h1, h2⟩
        exact ⟨⟨h1, h2 0 x rfl⟩, fun i y hy => h2 (i + 1) y (by simpa using hy)⟩

/-! ### One pit -/

theorem limited_within [Sub E] {bot maxdepth : E} {maxlen fuel : Nat} {c : Cell} {p : List Cell} (constrained : Bool)
    (hp : DigPath dn dem back (some c) (dem c) (c :: p)) (hf : (c :: p).length ≤ fuel)
    (hb : bot ≤ dem c - dem c) :
    (WithinLimits dn maxlen maxdepth dem (dem c) (c :: p) →
      limitedBreach fuel constrained dn bot maxlen maxdepth dem back c = carve fuel dn dem back c) ∧
    (¬ WithinLimits dn maxlen maxdepth dem (dem c) (c :: p) → constrained = false →
      (limitedBreach fuel constrained dn bot maxlen maxdepth dem back c).dem = dem) := by
  obtain ⟨k1, k2⟩ := meas_path dn dem (c :: p) (some c) (dem c) bot 0 fuel hp hf
  have hiff : ((loop (measStep dn dem back) fuel ⟨some c, dem c, bot, 0⟩).len ≤ maxlen ∧
      (loop (measStep dn dem back) fuel ⟨some c, dem c, bot, 0⟩).depth ≤ maxdepth) ↔
      WithinLimits dn maxlen maxdepth dem (dem c) (c :: p) := by
    rw [k1, k2, Nat.zero_add]
    unfold WithinLimits
    refine ⟨fun h => ⟨h.1, h.2.2⟩, fun h => ⟨h.1, ?_, h.2⟩⟩
    exact hb.trans (h.2 0 c rfl)
  unfold limitedBreach
  simp only
  refine ⟨fun h => ?_, fun h hc => ?_⟩
  · rw [if_pos (hiff.2 h)]
  · rw [if_neg (fun k => h (hiff.1 k)), hc]
    rfl

/-- C93: selective breaching of one pit does what `Selective` says: it digs along the back-links exactly if the path is
short enough and nowhere too deep. -/
theorem C93_pit [Sub E] {t : Topo} {w h : Nat} {out : Cell → Prop} {vis : Cell → Bool} (L : Links t w h out vis back)
    {c : Cell} (hc : vis c = true) (bot maxdepth : E) (maxlen : Nat) (hb : bot ≤ dem c - dem c) :
    Selective t dn maxlen maxdepth back c dem (limitedBreach (w * h) false dn bot maxlen maxdepth dem back c).dem := by
  obtain ⟨T, hT1, hT2⟩ := L.rank
  have hk := hT2 c hc
  obtain ⟨p, h1, h2, _, h4⟩ := digPath_exists T hT1 dn dem (w * h) (some c) (dem c) (fun x hx => by cases hx; omega)
  cases h1 with
  | lower _ _ hlt => exact absurd hlt (lt_irrefl _)
  | dig _ _ p hle h1 =>
    have hp : DigPath dn dem back (some c) (dem c) (c :: p) := .dig _ _ _ hle h1
    obtain ⟨k1, k2⟩ := limited_within (bot := bot) (maxdepth := maxdepth) (maxlen := maxlen) false hp h2 hb
    refine ⟨p, hp, h4, (hp.chain (fun a q hq => (L.link a q hq).2.2)).1, fun hw => ?_, fun hw => k2 hw rfl⟩
    rw [k1 hw]
    exact carve_path T hT1 dn _ _ _ _ _ hp h4 h2

/-! ### The whole run -/

theorem lsNbr_dem {pq : PQ (E × Cell) zLt} {t : Topo} {w h : Nat} {nd : E} {c : Cell} {s : LS E} {n : Nat} :
    (lsNbr pq t w h nd c s n).dem = s.dem := by
  unfold lsNbr
  simp only
  split
  · rfl
  · split
    · rfl
    · split <;> rfl

theorem lsNbrs_dem {pq : PQ (E × Cell) zLt} {t : Topo} {w h : Nat} {nd : E} {c : Cell} (l : List Nat) (s : LS E) :
    (l.foldl (lsNbr pq t w h nd c) s).dem = s.dem := by
  induction l generalizing s with
  | nil => rfl
  | cons n l ih => rw [List.foldl_cons, ih, lsNbr_dem]

/-- One turn of the main loop treats the cell taken from the queue if it is a pit, and changes nothing else. -/
theorem lsStep_dem {breach : (Cell → E) → (Cell → Option Cell) → Cell → CV E} {pq : PQ (E × Cell) zLt} {t : Topo} {w h : Nat}
    {nd : E} {s s' : LS E} (hs : lsStep breach pq t w h nd s = some s') :
    ∃ e r, pq.pop s.pq = some (e, r) ∧
      ((s.pits e.2 = true ∧ s'.dem = (breach s.dem s.back e.2).dem) ∨ (s.pits e.2 = false ∧ s'.dem = s.dem)) := by
  unfold lsStep at hs
  by_cases hfin : s.fin = true
  · rw [if_pos hfin] at hs; cases hs
  rw [if_neg hfin] at hs
  cases hp : pq.pop s.pq with
  | none => rw [hp] at hs; cases hs
  | some er =>
    obtain ⟨e, r⟩ := er
    refine ⟨e, r, rfl, ?_⟩
    rw [hp] at hs
    simp only at hs
    cases hpit : s.pits e.2 with
    | true =>
      left
      rw [hpit] at hs
      simp only [if_true] at hs
      refine ⟨rfl, ?_⟩
      split at hs
      · cases hs; rfl
      · cases hs; rw [lsNbrs_dem]
    | false =>
      right
      rw [hpit] at hs
      simp only [Bool.false_eq_true, if_false] at hs
      cases hs
      exact ⟨rfl, by rw [lsNbrs_dem]⟩

variable {t : Topo} {w h : Nat} {nd : E}

theorem lsNbrs_pits {pq : PQ (E × Cell) zLt} {c : Cell} (l : List Nat) (s : LS E) :
    (l.foldl (lsNbr pq t w h nd c) s).pits = s.pits := by
  induction l generalizing s with
  | nil => rfl
  | cons n l ih =>
    rw [List.foldl_cons, ih]
    unfold lsNbr
    simp only
    split
    · rfl
    · split
      · rfl
      · split <;> rfl

theorem lsStep_pits {breach : (Cell → E) → (Cell → Option Cell) → Cell → CV E} {pq : PQ (E × Cell) zLt}
    {s s' : LS E} (hs : lsStep breach pq t w h nd s = some s') : s'.pits = s.pits := by
  unfold lsStep at hs
  by_cases hfin : s.fin = true
  · rw [if_pos hfin] at hs; cases hs
  rw [if_neg hfin] at hs
  cases hp : pq.pop s.pq with
  | none => rw [hp] at hs; cases hs
  | some er =>
    rw [hp] at hs
    simp only at hs
    split at hs
    · split at hs
      · cases hs; rfl
      · cases hs; rw [lsNbrs_pits]
    · cases hs; rw [lsNbrs_pits]

/-- C93: the whole run of selective breaching (without filling): from the raster left by the first scan, it treats one
interior cell after the other as `Selective` says, and changes nothing in any other way. -/
theorem C93_selective [Sub E] (pq : PQ (E × Cell) zLt) (w h : Nat) (nd top bot : E) (dn up : E → E) (dem : Cell → E)
    (maxlen : Nat) (maxdepth : E) (hbot : ∀ x : E, bot ≤ x - x)
    (hdn : ∀ x, dn x ≤ x) (hdn2 : ∀ x y, x < y → x ≤ dn y) (G : E → Prop) (hG : ∀ x, G x → G (dn x) ∧ x ≠ nd)
    (hGd : ∀ c, InGrid w h c → dem c ≠ nd → G (dem c)) (htop : ∀ c, InGrid w h c → dem c ≤ top) :
    ReflTransGen (fun a b => ∃ c back, InGrid w h c ∧ dem c ≠ nd ∧ ¬ OnEdge w h c ∧
        Selective .D8 dn maxlen maxdepth back c a b)
      (lsInit pq .D8 w h nd top dn dem).dem (lindsayLimited pq w h nd top bot dn up false false maxlen maxdepth dem).dem := by
  have S0 := lsInit_ok (t := .D8) pq hdn hdn2 (fun x hx => (hG x hx).1) (fun x hx => (hG x hx).2)
    (fun c hc => hGd c hc.1 hc.2) htop
  have key : ∀ s : LS E, (LTree .D8 w h (bout .D8 w h dem nd) s ∧ s.pits = (lsInit pq .D8 w h nd top dn dem).pits ∧
      ReflTransGen (fun a b => ∃ c back, InGrid w h c ∧ dem c ≠ nd ∧ ¬ OnEdge w h c ∧
        Selective .D8 dn maxlen maxdepth back c a b) (lsInit pq .D8 w h nd top dn dem).dem s.dem) →
      ∀ s', lsStep (limitedBreach (w * h) false dn bot maxlen maxdepth) pq .D8 w h nd s = some s' →
      (LTree .D8 w h (bout .D8 w h dem nd) s' ∧ s'.pits = (lsInit pq .D8 w h nd top dn dem).pits ∧
      ReflTransGen (fun a b => ∃ c back, InGrid w h c ∧ dem c ≠ nd ∧ ¬ OnEdge w h c ∧
        Selective .D8 dn maxlen maxdepth back c a b) (lsInit pq .D8 w h nd top dn dem).dem s'.dem) := by
    rintro s ⟨I, hp, hR⟩ s' hs
    refine ⟨(lsStep_tree I hs).1, (lsStep_pits hs).trans hp, ?_⟩
    obtain ⟨e, r, he, ⟨h1, h2⟩ | ⟨_, h2⟩⟩ := lsStep_dem hs
    · have hv : s.vis e.2 = true := I.pqv e ((pq.pop_some he).1.mem_iff.2 List.mem_cons_self)
      rw [h2]
      rw [hp] at h1
      obtain ⟨⟨b1, b2⟩, b3⟩ := S0.pit e.2 h1
      exact hR.tail ⟨e.2, s.back, b1, b2, fun k => b3 (Or.inl k), C93_pit I.links hv bot maxdepth maxlen (hbot _)⟩
    · rw [h2]; exact hR
  have := loop_inv (step := lsStep (limitedBreach (w * h) false dn bot maxlen maxdepth) pq .D8 w h nd) _
    (fun s s' hi hs => key s hi s' hs) (floodFuel w h) (lsInit pq .D8 w h nd top dn dem) ⟨S0.tree, rfl, .refl⟩
  exact this.2.2

/-- C93: with a length limit of zero selective breaching changes nothing after the first scan. -/
theorem C93_zero [Sub E] (pq : PQ (E × Cell) zLt) (w h : Nat) (nd top bot : E) (dn up : E → E) (dem : Cell → E)
    (maxdepth : E) (hbot : ∀ x : E, bot ≤ x - x)
    (hdn : ∀ x, dn x ≤ x) (hdn2 : ∀ x y, x < y → x ≤ dn y) (G : E → Prop) (hG : ∀ x, G x → G (dn x) ∧ x ≠ nd)
    (hGd : ∀ c, InGrid w h c → dem c ≠ nd → G (dem c)) (htop : ∀ c, InGrid w h c → dem c ≤ top) :
    (lindsayLimited pq w h nd top bot dn up false false 0 maxdepth dem).dem = (lsInit pq .D8 w h nd top dn dem).dem := by
  have := C93_selective pq w h nd top bot dn up dem 0 maxdepth hbot hdn hdn2 G hG hGd htop
  generalize (lindsayLimited pq w h nd top bot dn up false false 0 maxdepth dem).dem = b at this
  induction this with
  | refl => rfl
  | tail _ hs ih =>
    obtain ⟨c, back, _, _, _, p, _, _, _, _, hn⟩ := hs
    rw [hn (fun hw => by have := hw.1; simp at this), ih]

theorem loop_congr {S : Type*} {f g : S → Option S} (P : S → Prop) (hfg : ∀ s, P s → f s = g s)
    (hP : ∀ s s', P s → g s = some s' → P s') : ∀ (n : Nat) (s : S), P s → loop f n s = loop g n s := by
  intro n
  induction n with
  | zero => intro s _; rfl
  | succ n ih =>
    intro s hs
    simp only [loop, hfg s hs]
    cases hg : g s with
    | none => rfl
    | some s' => exact ih s' (hP s s' hs hg)

theorem DigPath.visited {out : Cell → Prop} {vis : Cell → Bool} (L : Links t w h out vis back) {o : Option Cell} {v : E}
    {p : List Cell} (hp : DigPath dn dem back o v p) (ho : ∀ x, o = some x → vis x = true) : ∀ x ∈ p, vis x = true := by
  induction hp with
  | edge v => simp
  | lower x v _ => simp
  | dig x v p _ _ ih =>
    intro y hy
    rcases List.mem_cons.1 hy with rfl | hy
    · exact ho _ rfl
    · exact ih (fun z hz => (L.link x z hz).2.1) y hy

/-- C93: if the limits exclude no path (as many cells as the raster has, and as deep as the raster is high), both limited
modes give the result of complete breaching. -/
theorem C93_unlimited [AddCommGroup E] [IsOrderedAddMonoid E] (pq : PQ (E × Cell) zLt) (w h : Nat) (nd top bot : E) (up : E → E)
    (dem : Cell → E) (constrained : Bool) (maxlen : Nat) (maxdepth : E) (hbot : bot ≤ 0) (hlen : w * h ≤ maxlen)
    (hdepth : ∀ a b, InGrid w h a → InGrid w h b → dem a ≠ nd → dem b ≠ nd → dem a - dem b ≤ maxdepth)
    (htop : ∀ c, InGrid w h c → dem c ≤ top) :
    lindsayLimited pq w h nd top bot id up constrained false maxlen maxdepth dem = completeBreaching pq .D8 w h nd top id dem := by
  let G : E → Prop := fun x => ∃ a, breg w h dem nd a ∧ dem a = x
  have hGn : ∀ x, G x → x ≠ nd := by rintro x ⟨a, ha, rfl⟩; exact ha.2
  have S0 := lsInit_ok (t := .D8) (w := w) (h := h) (dem := dem) (nd := nd) (G := G) (dn := id) (top := top) pq (fun _ => le_rfl)
    (fun _ _ hxy => hxy.le) (fun _ hx => hx) hGn (fun c hc => ⟨c, hc, rfl⟩) htop
  show lsRun _ pq .D8 w h nd top id dem = lsRun _ pq .D8 w h nd top id dem
  unfold lsRun
  refine loop_congr (LInv .D8 w h nd G dem (lsInit pq .D8 w h nd top id dem).dem []) ?_ ?_ _ _ S0.linv
  · intro s I
    have hbr : ∀ e r, pq.pop s.pq = some (e, r) →
        limitedBreach (w * h) constrained id bot maxlen maxdepth s.dem s.back e.2 = carve (w * h) id s.dem s.back e.2 := by
      intro e r he
      have hv : s.vis e.2 = true := I.T.pqv e ((pq.pop_some he).1.mem_iff.2 List.mem_cons_self)
      obtain ⟨T, hT1, hT2⟩ := I.T.links.rank
      have hk := hT2 e.2 hv
      obtain ⟨p, h1, h2, _, h4⟩ := digPath_exists T hT1 id s.dem (w * h) (some e.2) (s.dem e.2) (fun x hx => by cases hx; omega)
      cases h1 with
      | lower _ _ hlt => exact absurd hlt (lt_irrefl _)
      | dig _ _ p hle h1 =>
        have hp : DigPath id s.dem s.back (some e.2) (s.dem e.2) (e.2 :: p) := .dig _ _ _ hle h1
        refine (limited_within constrained hp h2 (by rw [sub_self]; exact hbot)).1 ⟨h2.trans hlen, ?_⟩
        intro i x hx
        have hvx := hp.visited I.T.links (fun y hy => by cases hy; exact hv) x (List.mem_of_getElem? hx)
        obtain ⟨a, a1, a2⟩ := I.good x (I.visr x hvx)
        obtain ⟨b, b1, b2⟩ := I.good e.2 (I.visr e.2 hv)
        rw [Function.iterate_id, id, ← a2, ← b2]
        exact hdepth a b a1.1 b1.1 a1.2 b1.2
    unfold lsStep
    by_cases hfin : s.fin = true
    · rw [if_pos hfin, if_pos hfin]
    · rw [if_neg hfin, if_neg hfin]
      cases hp : pq.pop s.pq with
      | none => rfl
      | some er =>
        simp only [hbr er.1 er.2 hp]
  · intro s s' I hs
    exact lsStep_linv (fun _ => le_rfl) (fun _ hx => hx) hGn I hs

theorem DigPath.unique {o : Option Cell} {v : E} {p q : List Cell} (hp : DigPath dn dem back o v p)
    (hq : DigPath dn dem back o v q) : p = q := by
  induction hp generalizing q with
  | edge v => cases hq; rfl
  | lower x v hlt =>
    cases hq with
    | lower => rfl
    | dig _ _ _ hle => exact absurd hle (not_le.2 hlt)
  | dig x v p hle _ ih =>
    cases hq with
    | lower _ _ hlt => exact absurd hle (not_le.2 hlt)
    | dig _ _ q _ hq => rw [ih hq]

/-! ### Constrained breaching -/

theorem cons_path [Sub E] (T : Cell → Nat) (hT : ∀ c p, back c = some p → T p < T c) (d : E) :
    ∀ (p : List Cell) (dem : Cell → E) (o : Option Cell) (v u : E) (fuel : Nat), DigPath id dem back o v p → p.Nodup →
      p.length ≤ fuel →
      (∀ x, (loop (consStep id back v d true) fuel ⟨dem, o, u⟩).dem x = if x ∈ p then dem x - d else dem x) := by
  intro p
  induction p with
  | nil =>
    intro dem o v u fuel hp _ _
    have : consStep id back v d true ⟨dem, o, u⟩ = none := by
      cases hp with
      | edge v => rfl
      | lower x v hlt => simp only [consStep]; rw [if_neg (not_le.2 hlt)]
    rw [loop_none this]
    simp
  | cons x p ih =>
    intro dem o v u fuel hp hn hf y
    obtain ⟨k, rfl⟩ : ∃ k, fuel = k + 1 := ⟨fuel - 1, by simp at hf; omega⟩
    cases hp with
    | dig _ _ _ hle hp =>
      have hstep : consStep id back v d true ⟨dem, some x, u⟩ = some ⟨Function.update dem x (dem x - d), back x, id u⟩ := by
        simp only [consStep]; rw [if_pos hle]; rfl
      have hp' : DigPath id (Function.update dem x (dem x - d)) back (back x) v p := by
        refine hp.congr T hT fun z y hy hz => ?_
        have := hT x y hy
        exact Function.update_of_ne (by rintro rfl; omega) _ _
      obtain ⟨hx, hn'⟩ := List.nodup_cons.1 hn
      simp only [loop, hstep]
      rw [ih _ _ _ _ k hp' hn' (by simpa using hf) y]
      by_cases hyx : y = x
      · subst hyx
        rw [if_neg hx, if_pos (by simp), Function.update_self]
      · rw [Function.update_of_ne hyx]
        simp [hyx]

/-- C93, refuted part: constrained breaching does not regard `maxpathlen`: if no cell has to be lowered by more than
`maxdepth`, the path is dug whatever its length. -/
theorem C93_constrained_ignores_length_refuted [Sub E] {t : Topo} {w h : Nat} {out : Cell → Prop} {vis : Cell → Bool}
    (L : Links t w h out vis back) {c : Cell} (hc : vis c = true) (bot maxdepth : E) (maxlen : Nat)
    (hb : bot ≤ dem c - dem c) (p : List Cell) (hp : DigPath id dem back (some c) (dem c) (c :: p))
    (hd : ∀ x ∈ c :: p, dem x - dem c ≤ maxdepth) :
    CutAlong id (dem c) (c :: p) dem (limitedBreach (w * h) true id bot maxlen maxdepth dem back c).dem := by
  obtain ⟨T, hT1, hT2⟩ := L.rank
  have hk := hT2 c hc
  obtain ⟨q, h1, h2, _, h4⟩ := digPath_exists T hT1 id dem (w * h) (some c) (dem c) (fun x hx => by cases hx; omega)
  have hq := hp.unique h1
  rw [hq] at hp hd ⊢
  obtain ⟨k1, k2⟩ := meas_path id dem q (some c) (dem c) bot 0 (w * h) hp h2
  have hdepth : (loop (measStep id dem back) (w * h) ⟨some c, dem c, bot, 0⟩).depth ≤ maxdepth := by
    rw [k2]
    refine ⟨hb.trans (hd c (by rw [← hq]; simp)), fun i x hx => ?_⟩
    rw [Function.iterate_id]
    exact hd x (List.mem_of_getElem? hx)
  have key : (limitedBreach (w * h) true id bot maxlen maxdepth dem back c).dem = (carve (w * h) id dem back c).dem := by
    unfold limitedBreach
    simp only
    split
    · rfl
    · rw [if_pos trivial]
      unfold carve
      congr 1
      refine loop_congr (fun s : CV E => s.tgt = dem c) ?_ ?_ _ _ rfl
      · intro s hs
        unfold consStep carveStep
        rw [hs]
        simp [hdepth]
      · intro s s' hs he
        unfold carveStep at he
        split at he
        · cases he
        · split at he
          · cases he; exact hs
          · cases he
  rw [key]
  exact carve_path T hT1 id _ _ _ _ _ hp h4 h2

/-- C93, refuted part: where a cell of the path has to be lowered by more than `maxdepth`, constrained breaching lowers
every cell of the path, the pit included, by the greatest depth along it: by more than `maxdepth`. -/
theorem C93_constrained_too_deep_refuted [Sub E] {t : Topo} {w h : Nat} {out : Cell → Prop} {vis : Cell → Bool}
    (L : Links t w h out vis back) {c : Cell} (hc : vis c = true) (bot maxdepth : E) (maxlen : Nat)
    (hb : bot ≤ dem c - dem c) (p : List Cell) (hp : DigPath id dem back (some c) (dem c) (c :: p))
    (hd : ∃ x ∈ c :: p, maxdepth < dem x - dem c) :
    ∃ d, maxdepth < d ∧ (∀ x ∈ c :: p, dem x - dem c ≤ d) ∧ ∀ x,
      (limitedBreach (w * h) true id bot maxlen maxdepth dem back c).dem x = if x ∈ c :: p then dem x - d else dem x := by
  obtain ⟨T, hT1, hT2⟩ := L.rank
  have hk := hT2 c hc
  obtain ⟨q, h1, h2, _, h4⟩ := digPath_exists T hT1 id dem (w * h) (some c) (dem c) (fun x hx => by cases hx; omega)
  have hq := hp.unique h1
  rw [hq] at hp hd ⊢
  obtain ⟨k1, k2⟩ := meas_path id dem q (some c) (dem c) bot 0 (w * h) hp h2
  have hall := ((k2 _).1 le_rfl).2
  have hdepth : maxdepth < (loop (measStep id dem back) (w * h) ⟨some c, dem c, bot, 0⟩).depth := by
    obtain ⟨x, hx, hlt⟩ := hd
    obtain ⟨i, hi⟩ := List.mem_iff_getElem?.1 hx
    have := hall i x hi
    rw [Function.iterate_id] at this
    exact lt_of_lt_of_le hlt this
  refine ⟨_, hdepth, fun x hx => ?_, fun x => ?_⟩
  · obtain ⟨i, hi⟩ := List.mem_iff_getElem?.1 hx
    have := hall i x hi
    rwa [Function.iterate_id] at this
  · unfold limitedBreach
    simp only
    rw [if_neg (fun k => absurd k.2 (not_le.2 hdepth)), if_pos trivial]
    have : decide (¬ (loop (measStep id dem back) (w * h) ⟨some c, dem c, bot, 0⟩).depth ≤ maxdepth) = true := by
      simpa using hdepth
    rw [this]
    exact cons_path T hT1 _ q dem (some c) (dem c) (dem c) (w * h) hp h4 h2 x

/-! ### Concrete terrains -/

/-- A valley between walls of height 99. -/
def valley (floor : List Int) : Cell → Int :=
  fun c => if c.2 = 1 then floor.getD c.1.toNat 99 else 99

/-- The floor of the valley after limited breaching without filling. -/
def valleyCut (constrained : Bool) (maxlen : Nat) (maxdepth : Int) (floor : List Int) : List Int :=
  let s := lindsayLimited zPQ floor.length 3 (-9999) 1000 (-1000) id id constrained false maxlen maxdepth (valley floor)
  (List.range floor.length).map (fun x : Nat => s.dem ((x : Int), 1))

/-- A path of two cells that is four deep: dug if both limits allow it, left alone if one does not. -/
example : valleyCut false 2 4 [5, 10, 6, 6, 99] = [5, 6, 6, 6, 99] ∧
    valleyCut false 1 4 [5, 10, 6, 6, 99] = [5, 10, 6, 6, 99] ∧
    valleyCut false 2 3 [5, 10, 6, 6, 99] = [5, 10, 6, 6, 99] ∧
    valleyCut true 2 4 [5, 10, 6, 6, 99] = [5, 6, 6, 6, 99] := by decide +kernel

/-- C93, refuted part: "no cell is lowered by more than `maxdepth`".  Each path is measured on the terrain left by the ones
before it; the cell at 1 is lowered by 2 and then by 2 again, with a limit of 3. -/
theorem C93_total_depth_refuted : valleyCut false 100 3 [5, 10, 8, 8, 9, 6, 6, 99] = [5, 6, 6, 6, 6, 6, 6, 99] := by
  decide +kernel

/-- C93, refuted part: constrained breaching keeps to `maxdepth`.  Where the path is too deep it lowers every cell of the
path by the depth of the path, here 4 instead of at most 1, the pit itself included: the depression
is as deep as before. -/
theorem C93_constrained_depth_refuted : valleyCut true 100 1 [5, 10, 6, 6, 99] = [5, 6, 2, 6, 99] := by decide +kernel

/-- C93, refuted part: constrained breaching keeps to `maxpathlen`: the path of two cells is dug with a limit of one. -/
theorem C93_constrained_length_refuted : valleyCut true 1 100 [5, 10, 6, 6, 99] = [5, 6, 6, 6, 99] := by decide +kernel

/-- The hypotheses of the theorems are met by this valley. -/
example : (∀ x : Int, -1000 ≤ x - x) ∧ (∀ x : Int, id x ≤ x) ∧ (∀ x y : Int, x < y → x ≤ id y) ∧
    (∀ c ∈ allCells 5 3, valley [5, 10, 6, 6, 99] c ≤ 1000 ∧ valley [5, 10, 6, 6, 99] c ≠ -9999 ∧
      ∀ d ∈ allCells 5 3, valley [5, 10, 6, 6, 99] c - valley [5, 10, 6, 6, 99] d ≤ 94) := by
  refine ⟨fun x => by simp, fun _ => le_rfl, fun _ _ hxy => hxy.le, by decide +kernel⟩

end RichDEM
