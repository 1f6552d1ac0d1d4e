import Verif.Loop
import Verif.SpecFlats

/-!
Breadth-first expansion with an iteration marker in the queue: the traversal shared by
`BuildAwayGradient` and `BuildTowardsCombinedGradient`
(include/richdem/flats/Barnes2014.hpp:62-211), with the bookkeeping of levels only.
-/

namespace RichDEM

/-- Barnes2014.hpp:73, 163 `GridCell iteration_marker(-1,-1)`. -/
def marker : Cell := (-1, -1)

/-- Ghost traversal: the level at which each cell was marked (0: unmarked). -/
structure BfsS where
  lv : Cell → Nat
  q : List Cell
  loops : Nat

/-- Barnes2014.hpp:79-106 and 177-207, keeping only the level of each cell. -/
def bfsStep (cand : Cell → List Cell) (s : BfsS) : Option BfsS :=
  match s.q with
  | [] => none
  | [_] => none
  | c :: rest =>
    if c.1 = -1 then some { s with q := rest ++ [marker], loops := s.loops + 1 }
    else if s.lv c > 0 then some { s with q := rest }
    else some { s with lv := Function.update s.lv c s.loops, q := rest ++ cand c }

structure BfsInv (w h : Nat) (seed : Cell → Prop) (R : Cell → Cell → Prop) (A B : List Cell)
    (s : BfsS) : Prop where
  q : s.q = A ++ marker :: B
  pos : 1 ≤ s.loops
  insA : ∀ c ∈ A, InGrid w h c ∧ Hops seed R (s.loops - 1) c
  insB : ∀ c ∈ B, InGrid w h c ∧ Hops seed R s.loops c
  le : ∀ c, s.lv c ≤ s.loops
  inside : ∀ c, 0 < s.lv c → InGrid w h c
  sound : ∀ c, 0 < s.lv c → Hops seed R (s.lv c - 1) c
  front : ∀ a b, 0 < s.lv a → R a b → (0 < s.lv b ∧ s.lv b ≤ s.lv a + 1) ∨
    (s.lv a = s.loops ∧ b ∈ B) ∨ (s.lv a + 1 = s.loops ∧ b ∈ A)
  seeds : ∀ a, seed a → s.lv a = 1 ∨ (s.loops = 1 ∧ a ∈ A)

theorem bfsStep_inv {w h : Nat} {seed : Cell → Prop} {R : Cell → Cell → Prop}
    {cand : Cell → List Cell}
    (hc1 : ∀ a, InGrid w h a → ∀ b, b ∈ cand a ↔ R a b)
    (hc2 : ∀ a b, R a b → InGrid w h b) (hc3 : ∀ a, (cand a).length ≤ 8)
    {A B : List Cell} {s s' : BfsS} (I : BfsInv w h seed R A B s)
    (hs : bfsStep cand s = some s') :
    ∃ A' B', BfsInv w h seed R A' B' s' ∧
      2 * (9 * unflagged w h (fun c => decide (0 < s'.lv c)) + A'.length + B'.length) +
          (if A' = [] then 1 else 0) <
        2 * (9 * unflagged w h (fun c => decide (0 < s.lv c)) + A.length + B.length) +
          (if A = [] then 1 else 0) := by
  have hpos := I.pos
  cases A with
  | nil =>
    cases B with
    | nil => simp only [bfsStep, I.q, List.nil_append] at hs; cases hs
    | cons b B =>
      have hq : s.q = marker :: b :: B := I.q
      simp only [bfsStep, hq] at hs
      rw [if_pos (show marker.1 = -1 from rfl)] at hs
      injection hs with hs
      refine ⟨b :: B, [], ?_, ?_⟩
      · rw [← hs]
        constructor
        · simp
        · simp
        · intro c hc; simpa using I.insB c hc
        · intro c hc; simp at hc
        · intro c; exact (I.le c).trans (Nat.le_succ _)
        · exact I.inside
        · exact I.sound
        · intro a b' ha hab
          rcases I.front a b' ha hab with h1 | ⟨h1, h2⟩ | ⟨h1, h2⟩
          · exact .inl h1
          · right; right
            exact ⟨by simp only; omega, h2⟩
          · simp at h2
        · intro a ha
          rcases I.seeds a ha with h1 | ⟨_, h1⟩
          · exact .inl h1
          · simp at h1
      · rw [← hs]; simp
  | cons c A =>
    have hq : s.q = c :: (A ++ marker :: B) := I.q
    obtain ⟨hcin, hchop⟩ := I.insA c (by simp)
    have hx : c.1 ≠ -1 := by have := hcin.1; omega
    have hne : ∃ y ys, A ++ marker :: B = y :: ys := by
      cases A with
      | nil => exact ⟨_, _, rfl⟩
      | cons a A => exact ⟨_, _, rfl⟩
    have hs2 : (if c.1 = -1 then some { s with q := (A ++ marker :: B) ++ [marker], loops := s.loops + 1 }
        else if s.lv c > 0 then some { s with q := (A ++ marker :: B) }
        else some { s with lv := Function.update s.lv c s.loops, q := (A ++ marker :: B) ++ cand c })
        = some s' := by
      obtain ⟨y, ys, e⟩ := hne
      rw [e] at hq ⊢
      simp only [bfsStep, hq] at hs
      exact hs
    rw [if_neg hx] at hs2
    split at hs2
    · rename_i hm
      injection hs2 with hs2
      refine ⟨A, B, ?_, ?_⟩
      · rw [← hs2]
        constructor
        · rfl
        · exact I.pos
        · intro d hd; exact I.insA d (by simp [hd])
        · exact I.insB
        · exact I.le
        · exact I.inside
        · exact I.sound
        · intro a b ha hab
          rcases I.front a b ha hab with h1 | h1 | ⟨h1, h2⟩
          · exact .inl h1
          · exact .inr (.inl h1)
          · rcases List.mem_cons.1 h2 with rfl | h2
            · left
              have := I.le b
              exact ⟨hm, by simp only; omega⟩
            · exact .inr (.inr ⟨h1, h2⟩)
        · intro a ha
          rcases I.seeds a ha with h1 | ⟨h1, h2⟩
          · exact .inl h1
          · rcases List.mem_cons.1 h2 with rfl | h2
            · left
              have := I.le a
              simp only; omega
            · exact .inr ⟨h1, h2⟩
      · rw [← hs2]
        simp only [List.length_cons]
        split <;> simp <;> omega
    · rename_i hm
      have hm0 : s.lv c = 0 := by omega
      injection hs2 with hs2
      refine ⟨A, B ++ cand c, ?_, ?_⟩
      · rw [← hs2]
        have hlv : ∀ d, Function.update s.lv c s.loops d = if d = c then s.loops else s.lv d := by
          intro d; by_cases hd : d = c
          · subst hd; simp
          · simp [hd]
        constructor
        · simp
        · exact I.pos
        · intro d hd; exact I.insA d (by simp [hd])
        · intro d hd
          rcases List.mem_append.1 hd with hd | hd
          · exact I.insB d hd
          · have hR := (hc1 c hcin d).1 hd
            refine ⟨hc2 c d hR, ?_⟩
            have := Hops.succ hchop hR
            have e : s.loops - 1 + 1 = s.loops := by omega
            rw [e] at this; exact this
        · intro d; simp only [hlv]
          split
          · exact le_refl _
          · exact I.le d
        · intro d hd; simp only [hlv] at hd
          split at hd
          · rename_i e; rw [e]; exact hcin
          · exact I.inside d hd
        · intro d hd; simp only [hlv] at hd ⊢
          split at hd
          · rename_i e; rw [if_pos e, e]; exact hchop
          · rename_i e; rw [if_neg e]; exact I.sound d hd
        · intro a b ha hab
          simp only [hlv] at ha ⊢
          by_cases hac : a = c
          · rw [if_pos hac]
            right; left
            refine ⟨rfl, List.mem_append.2 (.inr ?_)⟩
            rw [hac] at hab
            exact (hc1 c hcin b).2 hab
          · rw [if_neg hac] at ha ⊢
            rcases I.front a b ha hab with h1 | ⟨h1, h2⟩ | ⟨h1, h2⟩
            · left
              by_cases hbc : b = c
              · rw [hbc] at h1; omega
              · rw [if_neg hbc]; exact h1
            · right; left; exact ⟨h1, List.mem_append.2 (.inl h2)⟩
            · rcases List.mem_cons.1 h2 with h2 | h2
              · left; rw [if_pos h2]; omega
              · right; right; exact ⟨h1, h2⟩
        · intro a ha
          simp only [hlv]
          rcases I.seeds a ha with h1 | ⟨h1, h2⟩
          · left
            have hac : a ≠ c := by rintro rfl; omega
            rw [if_neg hac]; exact h1
          · rcases List.mem_cons.1 h2 with h2 | h2
            · left; rw [if_pos h2]; exact h1
            · exact .inr ⟨h1, h2⟩
      · have h1 := unflagged_update (w := w) (h := h) (f := fun c => decide (0 < s.lv c)) hcin
          (by simp [hm0])
        have h2 : (fun d => decide (0 < s'.lv d)) =
            Function.update (fun c => decide (0 < s.lv c)) c true := by
          rw [← hs2]
          funext d
          by_cases hd : d = c
          · subst hd; simp; omega
          · simp [hd]
        rw [h2]
        have h3 := hc3 c
        simp only [List.length_cons, List.length_append]
        generalize unflagged w h (Function.update (fun c => decide (0 < s.lv c)) c true) = X at *
        generalize unflagged w h (fun c => decide (0 < s.lv c)) = Y at *
        split <;> simp <;> omega

/-- The iteration bound of the traversal. -/
def bfsFuel (w h : Nat) (n : Nat) : Nat := 2 * (9 * (w * h) + n) + 1

/-- The traversal stops with only the marker queued, and has then marked exactly the cells
reachable from the seeds, each with one plus its graph distance. -/
theorem bfs_final {w h : Nat} {R : Cell → Cell → Prop}
    {cand : Cell → List Cell} (seeds : List Cell)
    (hc1 : ∀ a, InGrid w h a → ∀ b, b ∈ cand a ↔ R a b)
    (hc2 : ∀ a b, R a b → InGrid w h b) (hc3 : ∀ a, (cand a).length ≤ 8)
    (hin : ∀ c ∈ seeds, InGrid w h c) :
    let r := loop (bfsStep cand) (bfsFuel w h seeds.length)
      { lv := fun _ => 0, q := seeds ++ [marker], loops := 1 }
    r.q = [marker] ∧
    (∀ c, 0 < r.lv c → IsHopDist (· ∈ seeds) R c (r.lv c - 1)) ∧
    (∀ c n, Hops (· ∈ seeds) R n c → 0 < r.lv c) := by
  intro r
  have I0 : BfsInv w h (· ∈ seeds) R seeds []
      { lv := fun _ => 0, q := seeds ++ [marker], loops := 1 } := by
    constructor
    · rfl
    · exact le_refl _
    · intro c hc; exact ⟨hin c hc, .zero hc⟩
    · intro c hc; simp at hc
    · intro c; simp
    · intro c hc; simp at hc
    · intro c hc; simp at hc
    · intro a b ha; simp at ha
    · intro a ha; exact .inr ⟨rfl, ha⟩
  obtain ⟨⟨⟨A, B⟩, lv⟩, ⟨I, -⟩, hnone⟩ := loop_ghost (step := bfsStep cand)
    (fun (g : (List Cell × List Cell) × (Cell → Nat)) (s : BfsS) =>
      BfsInv w h (· ∈ seeds) R g.1.1 g.1.2 s ∧ g.2 = s.lv)
    (fun g => 2 * (9 * unflagged w h (fun c => decide (0 < g.2 c)) + g.1.1.length + g.1.2.length)
      + (if g.1.1 = [] then 1 else 0))
    (by
      rintro ⟨⟨A, B⟩, lv⟩ s s' ⟨hI, hn⟩ hss
      obtain ⟨A', B', hI', hlt⟩ := bfsStep_inv hc1 hc2 hc3 hI hss
      simp only at hn
      subst hn
      exact ⟨((A', B'), s'.lv), ⟨hI', rfl⟩, hlt⟩)
    (bfsFuel w h seeds.length) _ ((seeds, []), fun _ => 0) ⟨I0, rfl⟩
    (by
      have := unflagged_le w h (fun _ => decide (0 < 0))
      simp only [bfsFuel, List.length_nil]
      split <;> omega)
  change BfsInv w h (· ∈ seeds) R A B r at I
  change bfsStep cand r = none at hnone
  have hAB : A = [] ∧ B = [] := by
    have hq := I.q
    rcases A with _ | ⟨a, A⟩
    · rcases B with _ | ⟨b, B⟩
      · exact ⟨rfl, rfl⟩
      · simp only [bfsStep, hq, List.nil_append] at hnone
        split at hnone
        · cases hnone
        · split at hnone <;> cases hnone
    · exfalso
      have hne : ∃ y ys, A ++ marker :: B = y :: ys := by
        cases A with
        | nil => exact ⟨_, _, rfl⟩
        | cons a A => exact ⟨_, _, rfl⟩
      obtain ⟨y, ys, e⟩ := hne
      rw [List.cons_append, e] at hq
      simp only [bfsStep, hq] at hnone
      split at hnone
      · cases hnone
      · split at hnone <;> cases hnone
  obtain ⟨rfl, rfl⟩ := hAB
  have key : ∀ n c, Hops (· ∈ seeds) R n c → 0 < r.lv c ∧ r.lv c ≤ n + 1 := by
    intro n c hn
    induction hn with
    | zero hs =>
      rcases I.seeds _ hs with h1 | ⟨_, h1⟩
      · omega
      · simp at h1
    | succ _ hR ih =>
      rcases I.front _ _ ih.1 hR with h1 | ⟨_, h1⟩ | ⟨_, h1⟩
      · omega
      · simp at h1
      · simp at h1
  refine ⟨I.q, ?_, fun c n hn => (key n c hn).1⟩
  intro c hc
  refine ⟨I.sound c hc, fun m hm => ?_⟩
  have := (key m c hm).2
  omega

/-- Both steps decline, or both succeed in related states. -/
def OptRel {S T : Type*} (R : S → T → Prop) : Option S → Option T → Prop
  | none, none => True
  | some s, some t => R s t
  | _, _ => False

/-- Two loops whose steps correspond stay related. -/
theorem loop_sim {S T : Type*} {f : S → Option S} {g : T → Option T} (R : S → T → Prop)
    (h : ∀ s t, R s t → OptRel R (f s) (g t)) :
    ∀ n s t, R s t → R (loop f n s) (loop g n t) := by
  intro n
  induction n with
  | zero => intro s t hr; exact hr
  | succ n ih =>
    intro s t hr
    have := h s t hr
    simp only [loop]
    cases hf : f s <;> cases hg : g t <;> simp only [hf, hg, OptRel] at this ⊢
    · exact hr
    · exact ih _ _ this

end RichDEM
