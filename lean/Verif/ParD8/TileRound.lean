/-
The two rounds of a consumer on one tile.
-/
import Verif.ParD8.Path

namespace RichDEM

open Relation Finset

/-- Index of a perimeter cell in the vectors of a job. -/
def ser (w h : Nat) (c : Cell) : Nat := (xyToSerial w h c).toNat

/-- The cell with an index. -/
def unser (w h : Nat) (s : Nat) : Cell := serialToXY w h s

section
variable {w h : Nat} {fd : Cell → Nat} {nd : Nat}

theorem unser_ser {c : Cell} (hc : OnEdge w h c) (hh : 2 ≤ h) : unser w h (ser w h c) = c := by
  unfold unser ser
  have := xyToSerial_range hh hc
  rw [Int.toNat_of_nonneg this.1]
  exact serialToXY_xyToSerial hc

theorem ser_lt {c : Cell} (hc : OnEdge w h c) (hh : 2 ≤ h) : ser w h c < perimLen w h := by
  unfold ser
  have := xyToSerial_range hh hc
  omega

theorem ser_inj {c d : Cell} (hc : OnEdge w h c) (hd : OnEdge w h d) (hh : 2 ≤ h) (he : ser w h c = ser w h d) : c = d := by
  rw [← unser_ser hc hh, he, unser_ser hd hh]

theorem toLink_ser {c : Cell} (hc : OnEdge w h c) (hh : 2 ≤ h) (hs : perimLen w h ≤ 65533) :
    toLink (xyToSerial w h c) = ser w h c := by
  have := xyToSerial_range hh hc
  unfold toLink ser
  rw [Int.emod_eq_of_lt this.1 (by omega)]

theorem unser_onEdge {s : Nat} (hw : 1 ≤ w) (hh : 2 ≤ h) (hs : s < perimLen w h) : OnEdge w h (unser w h s) :=
  serialToXY_onEdge hw hh (by omega) (by omega)

theorem dx_bound (n : Nat) : -1 ≤ dx .D8 n ∧ dx .D8 n ≤ 1 := by
  unfold dx d8x
  rcases n with _ | _ | _ | _ | _ | _ | _ | _ | _ | n <;> simp

theorem dy_bound (n : Nat) : -1 ≤ dy .D8 n ∧ dy .D8 n ≤ 1 := by
  unfold dy d8y
  rcases n with _ | _ | _ | _ | _ | _ | _ | _ | _ | n <;> simp

theorem ExitCell.onEdge {e : Cell} (he : ExitCell w h fd nd e) : OnEdge w h e := by
  obtain ⟨⟨h1, h2, h3, h4⟩, _, _, h5⟩ := he
  refine ⟨⟨h1, h2, h3, h4⟩, ?_⟩
  have a := dx_bound (fd e)
  have b := dy_bound (fd e)
  by_contra hn
  apply h5
  unfold nbr
  refine ⟨?_, ?_, ?_, ?_⟩ <;> dsimp only <;> omega

theorem mem_pdStarts (hw : 1 ≤ w) (hh : 2 ≤ h) {ed : TileEdges} {c : Cell} : c ∈ pdStarts w h ed ↔ InGrid w h c ∧
    ((ed.top = false ∧ c.2 = 0) ∨ (ed.bottom = false ∧ c.2 = (h : Int) - 1) ∨ (ed.left = false ∧ c.1 = 0) ∨
      (ed.right = false ∧ c.1 = (w : Int) - 1)) := by
  obtain ⟨c1, c2⟩ := c
  unfold pdStarts InGrid
  simp only [List.mem_append]
  constructor
  · rintro (((h1 | h1) | h1) | h1) <;> split_ifs at h1 with hb <;>
      simp only [List.mem_map, List.mem_range, Prod.mk.injEq, List.not_mem_nil] at h1
    all_goals
      obtain ⟨n, a1, a2, a3⟩ := h1
      simp only [Bool.not_eq_true] at hb
      simp only [hb, true_and]
      omega
  · rintro ⟨⟨h1, h2, h3, h4⟩, (⟨a, rfl⟩ | ⟨a, rfl⟩ | ⟨a, rfl⟩ | ⟨a, rfl⟩)⟩
    · left; left; left
      rw [a]
      exact List.mem_map.2 ⟨c1.toNat, List.mem_range.2 (by omega), by simp only [Prod.mk.injEq]; exact ⟨by omega, trivial⟩⟩
    · left; left; right
      rw [a]
      exact List.mem_map.2 ⟨c1.toNat, List.mem_range.2 (by omega), by simp only [Prod.mk.injEq]; exact ⟨by omega, trivial⟩⟩
    · left; right
      rw [a]
      exact List.mem_map.2 ⟨c2.toNat, List.mem_range.2 (by omega), by simp only [Prod.mk.injEq]; exact ⟨trivial, by omega⟩⟩
    · right
      rw [a]
      exact List.mem_map.2 ⟨c2.toNat, List.mem_range.2 (by omega), by simp only [Prod.mk.injEq]; exact ⟨trivial, by omega⟩⟩

theorem pdStarts_onEdge (hw : 1 ≤ w) (hh : 2 ≤ h) {ed : TileEdges} {c : Cell} (hc : c ∈ pdStarts w h ed) : OnEdge w h c := by
  rw [mem_pdStarts hw hh] at hc
  exact ⟨hc.1, by omega⟩

/-- Folding updates whose values never fail. -/
theorem foldlM_update {A : Type*} (key : Cell → Nat) (f : Cell → Option A) (v : Cell → A) :
    ∀ (L : List Cell) (l0 : Nat → A), (∀ c ∈ L, f c = some (v c)) →
      L.foldlM (fun l c => (f c).map (fun x => Function.update l (key c) x)) l0 =
        some (L.foldl (fun l c => Function.update l (key c) (v c)) l0) := by
  intro L
  induction L with
  | nil => intro l0 _; rfl
  | cons c L ih =>
    intro l0 hf
    rw [List.foldlM_cons, hf c (by simp)]
    simp only [Option.map_some, Option.bind_eq_bind, Option.bind_some, List.foldl_cons]
    exact ih _ (fun d hd => hf d (by simp [hd]))

theorem foldl_update_get {A : Type*} (key : Cell → Nat) (v : Cell → A) :
    ∀ (L : List Cell) (l0 : Nat → A), (∀ c ∈ L, ∀ d ∈ L, key c = key d → c = d) →
      (∀ c ∈ L, L.foldl (fun l c => Function.update l (key c) (v c)) l0 (key c) = v c) ∧
      (∀ s, (∀ c ∈ L, key c ≠ s) → L.foldl (fun l c => Function.update l (key c) (v c)) l0 s = l0 s) := by
  intro L
  induction L using List.reverseRecOn with
  | nil => intro l0 _; simp
  | append_singleton L c ih =>
    intro l0 hk
    obtain ⟨i1, i2⟩ := ih l0 (fun a ha b hb => hk a (by simp [ha]) b (by simp [hb]))
    simp only [List.foldl_append, List.foldl_cons, List.foldl_nil]
    constructor
    · intro d hd
      by_cases hdc : d = c
      · subst hdc; rw [Function.update_self]
      · have hd' : d ∈ L := by
          rcases List.mem_append.1 hd with h1 | h1
          · exact h1
          · exact absurd (by simpa using h1) hdc
        rw [Function.update_of_ne, i1 d hd']
        intro he
        exact hdc (hk d hd c (by simp) he)
    · intro s hs
      rw [Function.update_of_ne, i2 s (fun d hd => hs d (by simp [hd]))]
      exact fun he => hs c (by simp) he.symm

/-- What a vector of links says. -/
structure LinkOk (w h : Nat) (fd : Cell → Nat) (nd : Nat) (ed : TileEdges) (l : Nat → Nat) : Prop where
  start : ∀ c ∈ pdStarts w h ed,
    (l (ser w h c) = FLOW_TERMINATES ∧ ∀ e, ReflTransGen (PathStep w h fd nd) c e → ¬ ExitCell w h fd nd e) ∨
    ∃ e, ReflTransGen (PathStep w h fd nd) c e ∧ ExitCell w h fd nd e ∧
      l (ser w h c) = if e = c then FLOW_EXTERNAL else ser w h e
  other : ∀ s, (∀ c ∈ pdStarts w h ed, ser w h c ≠ s) → l s = FLOW_TERMINATES

theorem pdLinks_ok (hw : 1 ≤ w) (hh : 2 ≤ h) (hs : perimLen w h ≤ 65533) (K : Acyclic8 w h fd nd) (ed : TileEdges) :
    ∃ l, pdLinks w h fd nd ed = some l ∧ LinkOk w h fd nd ed l := by
  classical
  have hv : ∀ c ∈ pdStarts w h ed, ∃ v, followPath w h fd nd c = some v ∧
      ((v = FLOW_TERMINATES ∧ ∀ e, ReflTransGen (PathStep w h fd nd) c e → ¬ ExitCell w h fd nd e) ∨
       ∃ e, ReflTransGen (PathStep w h fd nd) c e ∧ ExitCell w h fd nd e ∧
        v = if e = c then FLOW_EXTERNAL else toLink (xyToSerial w h e)) := fun c hc =>
    followFrom_spec K c (w * h) c (mem_pdStarts hw hh |>.1 hc).1 (pathLeft_le c)
  let v : Cell → Nat := fun c => if hc : c ∈ pdStarts w h ed then (hv c hc).choose else 0
  have hv1 : ∀ c ∈ pdStarts w h ed, followPath w h fd nd c = some (v c) := by
    intro c hc
    have := (hv c hc).choose_spec.1
    simp only [v, dif_pos hc]; exact this
  have hv2 : ∀ c ∈ pdStarts w h ed, ((v c = FLOW_TERMINATES ∧ ∀ e, ReflTransGen (PathStep w h fd nd) c e → ¬ ExitCell w h fd nd e) ∨
       ∃ e, ReflTransGen (PathStep w h fd nd) c e ∧ ExitCell w h fd nd e ∧
        v c = if e = c then FLOW_EXTERNAL else toLink (xyToSerial w h e)) := by
    intro c hc
    have := (hv c hc).choose_spec.2
    simp only [v, dif_pos hc]; exact this
  obtain ⟨g1, g2⟩ := foldl_update_get (fun c => ser w h c) v (pdStarts w h ed) (fun _ => FLOW_TERMINATES)
    (fun c hc d hd he => ser_inj (pdStarts_onEdge hw hh hc) (pdStarts_onEdge hw hh hd) hh he)
  refine ⟨_, foldlM_update (fun c => ser w h c) _ v _ _ hv1, ?_, ?_⟩
  · intro c hc
    rw [g1 c hc]
    rcases hv2 c hc with h1 | ⟨e, h1, h2, h3⟩
    · exact .inl h1
    · right
      refine ⟨e, h1, h2, ?_⟩
      rw [h3, toLink_ser h2.onEdge hh hs]
  · intro s hno
    exact g2 s hno

/-- What a first-round result says. -/
structure JobOk (w h : Nat) (fd : Cell → Nat) (nd : Nat) (ed : TileEdges) (j : PDJob) : Prop where
  size : j.size = perimLen w h
  links : LinkOk w h fd nd ed j.links
  accum : ∀ s, s < perimLen w h → j.accum s = pdLocal w h fd nd (unser w h s)
  fds : ∀ s, s < perimLen w h → j.fd s = fd (unser w h s)

theorem pdFirst_ok (hw : 1 ≤ w) (hh : 2 ≤ h) (hs : perimLen w h ≤ 65533) (K : Acyclic8 w h fd nd) (ed : TileEdges) :
    ∃ j, pdFirst w h fd nd ed = some j ∧ JobOk w h fd nd ed j := by
  obtain ⟨l, l1, l2⟩ := pdLinks_ok hw hh hs K ed
  obtain ⟨f, f1, f2, f3⟩ := gridPerim_spec hw hh fd
  obtain ⟨a, a1, a2, a3⟩ := gridPerim_spec hw hh (pdLocal w h fd nd)
  refine ⟨⟨perimLen w h, l, fun s => a.getD s 0, fun s => f.getD s 0⟩, ?_, rfl, l2, ?_, ?_⟩
  · unfold pdFirst
    rw [l1, f1, a1]
    rfl
  · intro s hs
    show a.getD s 0 = _
    rw [List.getD_eq_getElem?_getD, a3 s hs]; rfl
  · intro s hs
    show f.getD s 0 = _
    rw [List.getD_eq_getElem?_getD, f3 s hs]; rfl

open Classical in
/-- What the second round computes. -/
theorem pdSecond_spec (hw : 1 ≤ w) (hh : 2 ≤ h) (K : Acyclic8 w h fd nd) (off : Nat → Int) :
    ∃ out, pdSecond w h fd nd (perimLen w h) off = some out ∧
      ∀ c, out c = pdLocal w h fd nd c +
        ∑ s ∈ range (perimLen w h), if fd c ≠ nd ∧ ReflTransGen (PathStep w h fd nd) (unser w h s) c then off s else 0 := by
  unfold pdSecond
  have : ∀ m, m ≤ perimLen w h → ∃ out, (List.range m).foldlM
      (fun acc s => if off s = 0 then some acc else followAdd w h fd nd (off s) (w * h + 1) (serialToXY w h s) acc)
      (pdLocal w h fd nd) = some out ∧
      ∀ c, out c = pdLocal w h fd nd c +
        ∑ s ∈ range m, if fd c ≠ nd ∧ ReflTransGen (PathStep w h fd nd) (unser w h s) c then off s else 0 := by
    intro m
    induction m with
    | zero => intro _; exact ⟨pdLocal w h fd nd, rfl, by simp⟩
    | succ m ih =>
      intro hm
      obtain ⟨o, o1, o2⟩ := ih (by omega)
      rw [List.range_succ, List.foldlM_append, o1]
      simp only [Option.bind_eq_bind, Option.bind_some, List.foldlM_cons, List.foldlM_nil]
      by_cases h0 : off m = 0
      · rw [if_pos h0]
        refine ⟨o, rfl, fun c => ?_⟩
        rw [o2, sum_range_succ, h0]
        simp
      · rw [if_neg h0]
        obtain ⟨o', p1, p2⟩ := followAdd_spec K (off m) (w * h + 1) (serialToXY w h m) o
          (unser_onEdge hw hh (s := m) (by omega)).1 (by have := pathLeft_le (w := w) (h := h) (fd := fd) (nd := nd) (serialToXY w h m); omega)
        rw [p1]
        refine ⟨o', rfl, fun c => ?_⟩
        rw [p2, o2, sum_range_succ, add_assoc]
        rfl
  exact this _ le_rfl

end

end RichDEM
