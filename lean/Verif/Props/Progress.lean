/-
Property theorems C123: the timer and the progress bar.
-/
import Verif.Progress.Bar
import Verif.Raster
import Mathlib.Tactic.Linarith
import Mathlib.Algebra.BigOperators.Group.List.Basic

namespace RichDEM
namespace Progress

open Gdal (Res)
open Tools (andThen)

/-! ### Specification -/

/-- The calls that neither start nor stop a timer, or start it again. -/
def Keeps : TimerCall → Prop
  | .start _ => True
  | .stop _ => False
  | .total => True
  | .lap _ => True
  | .reset => False

/-- The last call of start, stop and reset in the history is start. -/
def Running (h : List TimerCall) : Prop := ∃ h1 a h2, h = h1 ++ .start a :: h2 ∧ ∀ c ∈ h2, Keeps c

/-- The times of the clock a call reads. -/
def timesOf : TimerCall → List ℚ
  | .start a => [a]
  | .stop a => [a]
  | .total => []
  | .lap a => [a]
  | .reset => []

/-! ### The timer -/

theorem after_snoc (h : List TimerCall) (c : TimerCall) (t : Timer) :
    Timer.after (h ++ [c]) t = ((Timer.after h t).call c).2 := by
  unfold Timer.after
  rw [List.foldl_append]
  rfl

theorem running_snoc (h : List TimerCall) (c : TimerCall) :
    Running (h ++ [c]) ↔ (∃ a, c = .start a) ∨ (Running h ∧ Keeps c) := by
  constructor
  · rintro ⟨h1, a, h2, e, hk⟩
    rcases List.eq_nil_or_concat h2 with rfl | ⟨h3, d, rfl⟩
    · left
      have := List.append_inj_right' (t₁ := [c]) (t₂ := [.start a]) e rfl
      exact ⟨a, (List.cons.inj this).1⟩
    · right
      rw [List.concat_eq_append] at e hk
      rw [← List.cons_append, ← List.append_assoc] at e
      obtain ⟨e1, e2⟩ := List.append_inj' e rfl
      obtain rfl := (List.cons.inj e2).1
      exact ⟨⟨h1, a, h3, e1, fun x hx => hk x (by simp [hx])⟩, hk c (by simp)⟩
  · rintro (⟨a, rfl⟩ | ⟨⟨h1, a, h2, rfl, hk⟩, hc⟩)
    · exact ⟨h, a, [], rfl, by simp⟩
    · refine ⟨h1, a, h2 ++ [c], by simp, fun x hx => ?_⟩
      rcases List.mem_append.1 hx with hx | hx
      · exact hk x hx
      · rw [List.mem_singleton.1 hx]; exact hc

theorem after_running (h : List TimerCall) : (Timer.after h {}).running = true ↔ Running h := by
  induction h using List.reverseRecOn with
  | nil =>
    constructor
    · intro k; cases k
    · rintro ⟨h1, a, h2, e, -⟩; simp at e
  | append_singleton h c ih =>
    rw [after_snoc, running_snoc, ← ih]
    cases hr : (Timer.after h {}).running <;> cases c <;>
      simp [Timer.call, Timer.start, Timer.stop, Timer.reset, Keeps, hr]

/-- **C123 (the timer: exceptions).** After any history, `start` and `accumulated` throw exactly if the
timer runs (the last of start, stop and reset was start), `stop` and `lap` exactly if it does not,
`reset` never; a call that throws leaves the timer as it was. -/
theorem C123_timer_protocol (h : List TimerCall) (now : ℚ) :
    let t := Timer.after h {}
    ((t.call (.start now)).1 = .throws ↔ Running h) ∧
    ((t.call .total).1 = .throws ↔ Running h) ∧
    ((t.call (.stop now)).1 = .throws ↔ ¬ Running h) ∧
    ((t.call (.lap now)).1 = .throws ↔ ¬ Running h) ∧
    (t.call .reset).1 = .ok 0 ∧
    (∀ c, (t.call c).1 ≠ .ub ∧ ((t.call c).1 = .throws → (t.call c).2 = t)) := by
  intro t
  rw [← after_running h]
  change (_ ↔ t.running = true) ∧ (_ ↔ t.running = true) ∧ (_ ↔ ¬ t.running = true) ∧ (_ ↔ ¬ t.running = true) ∧ _ ∧ _
  cases hr : t.running
  · refine ⟨?_, ?_, ?_, ?_, rfl, ?_⟩
    · simp [Timer.call, Timer.start, hr]
    · simp [Timer.call, Timer.total, hr]
    · simp [Timer.call, Timer.stop, hr]
    · simp [Timer.call, Timer.lap, hr]
    · intro c
      cases c <;> simp [Timer.call, Timer.start, Timer.stop, Timer.total, Timer.lap, hr]
  · refine ⟨?_, ?_, ?_, ?_, rfl, ?_⟩
    · simp [Timer.call, Timer.start, hr]
    · simp [Timer.call, Timer.total, hr]
    · simp [Timer.call, Timer.stop, hr]
    · simp [Timer.call, Timer.lap, hr]
    · intro c
      cases c <;> simp [Timer.call, Timer.start, Timer.stop, Timer.total, Timer.lap, hr]

theorem intervals (l : List (ℚ × ℚ)) (t : Timer) (hr : t.running = false) :
    (Timer.after (l.flatMap fun p => [.start p.1, .stop p.2]) t).running = false ∧
    (Timer.after (l.flatMap fun p => [.start p.1, .stop p.2]) t).accumulated = t.accumulated + (l.map fun p => p.2 - p.1).sum := by
  induction l generalizing t with
  | nil => simp [Timer.after, hr]
  | cons p l ih =>
    rw [List.flatMap_cons]
    have e : Timer.after ([.start p.1, .stop p.2] ++ l.flatMap fun p => [.start p.1, .stop p.2]) t =
        Timer.after (l.flatMap fun p => [.start p.1, .stop p.2])
          { startTime := p.1, accumulated := t.accumulated + (p.2 - p.1), running := false } := by
      unfold Timer.after
      rw [List.foldl_append]
      simp [Timer.call, Timer.start, Timer.stop, hr]
    rw [e]
    obtain ⟨h1, h2⟩ := ih { startTime := p.1, accumulated := t.accumulated + (p.2 - p.1), running := false } rfl
    refine ⟨h1, ?_⟩
    rw [h2, List.map_cons, List.sum_cons]
    dsimp only
    ring

/-- **C123 (the timer: what it measures).** Started and stopped any number of times after a reset, a timer
has accumulated the sum of the lengths of the intervals. -/
theorem C123_timer_sum (h : List TimerCall) (l : List (ℚ × ℚ)) :
    (Timer.after (h ++ .reset :: l.flatMap fun p => [.start p.1, .stop p.2]) {}).total =
      .ok (l.map fun p => p.2 - p.1).sum := by
  have : Timer.after (h ++ .reset :: l.flatMap fun p => [.start p.1, .stop p.2]) {} =
      Timer.after (l.flatMap fun p => [.start p.1, .stop p.2]) (Timer.after h {}).reset := by
    unfold Timer.after
    rw [List.foldl_append]
    rfl
  rw [this]
  obtain ⟨h1, h2⟩ := intervals l (Timer.after h {}).reset rfl
  unfold Timer.total
  rw [h1, h2]
  simp [Timer.reset]

/-- **C123 (the timer: no negative time).** Whatever the history of calls, if the clock does not run
backwards then what is accumulated is not negative. -/
theorem C123_timer_nonneg (h : List TimerCall) (hc : (h.flatMap timesOf).Pairwise (· ≤ ·)) (a : ℚ)
    (ha : (Timer.after h {}).total = .ok a) : 0 ≤ a := by
  have key : ∀ (h : List TimerCall) (t : Timer), (h.flatMap timesOf).Pairwise (· ≤ ·) → 0 ≤ t.accumulated →
      (t.running = true → ∀ x ∈ h.flatMap timesOf, t.startTime ≤ x) → 0 ≤ (Timer.after h t).accumulated := by
    intro h
    induction h with
    | nil => exact fun t _ h0 _ => h0
    | cons c h ih =>
      intro t hp h0 hs
      rw [List.flatMap_cons] at hp hs
      obtain ⟨_, hp2, hp3⟩ := List.pairwise_append.1 hp
      refine ih _ hp2 ?_ ?_
      · cases hr : t.running <;> cases c <;>
          simp [Timer.call, Timer.start, Timer.stop, Timer.reset, hr, h0]
        rename_i b _
        have := hs hr b (by simp [timesOf])
        linarith
      · intro hr' x hx
        cases hr : t.running <;> cases c <;>
          simp [Timer.call, Timer.start, Timer.stop, Timer.reset, hr] at hr' ⊢
        · exact hp3 _ (by simp [timesOf]) x hx
        all_goals exact hs hr x (List.mem_append_right _ hx)
  have := key h {} hc (le_refl _) (by intro k; cases k)
  unfold Timer.total at ha
  split at ha
  · cases ha
  · cases ha; exact this

/-! ### The progress bar -/

/-- A bar started with a total, its timer running. -/
def Live (total : Nat) (b : Bar) : Prop := (∃ v, b.counts = some v ∧ v.totalWork = total) ∧ b.timer.running = true

theorem start_live (b : Bar) (total : Nat) (now : ℚ) :
    ∃ b1, b.start total now = .ok b1 ∧ Live total b1 ∧ b1.counts = some ⟨total, 0, total / 200, 0, 0⟩ ∧
      b1.timer = { startTime := now, accumulated := 0, running := true } :=
  ⟨_, rfl, ⟨⟨_, rfl, rfl⟩, rfl⟩, rfl, rfl⟩

/-- What one update does to a live bar. -/
theorem update_live (omp : Bool) (thread team : Nat) (now : ℚ) (b : Bar) (work total : Nat) (hb : Live total b)
    (ht : 0 < total) :
    ∃ b2 ls, Bar.update omp thread team now b work = .ok (b2, ls) ∧ Live total b2 ∧ b2.timer = b.timer ∧
      ((omp = true ∧ thread = 0 ∧ ∃ v v2, b.counts = some v ∧ b2.counts = some v2 ∧ v2.workDone = work ∧
          ((ls = [] ∧ v2.oldPercent = v.oldPercent) ∨
            (v2.oldPercent = min (share work team total) 100 ∧ v2.oldPercent ≠ v.oldPercent ∧
              ls = [⟨v2.oldPercent, if v2.oldPercent = 0 then none else
                some ((now - b.timer.startTime) / v2.oldPercent * (100 - v2.oldPercent)), team⟩]))) ∨
        (¬ (omp = true ∧ thread = 0) ∧ b2 = b ∧ ls = [])) := by
  obtain ⟨⟨v, hv, hvt⟩, hr⟩ := hb
  by_cases h0 : omp = true ∧ thread = 0
  · obtain ⟨rfl, rfl⟩ := h0
    unfold Bar.update
    rw [if_neg (by simp [threadNum]), hv]
    dsimp only
    by_cases h1 : work < v.nextUpdate
    · rw [if_pos h1]
      exact ⟨_, _, rfl, ⟨⟨_, rfl, hvt⟩, hr⟩, rfl, Or.inl ⟨rfl, rfl, v, _, rfl, rfl, rfl, Or.inl ⟨rfl, rfl⟩⟩⟩
    · rw [if_neg h1, if_neg (show ¬ v.totalWork = 0 by omega)]
      by_cases h3 : min (share work (numThreads true team) v.totalWork) 100 = v.oldPercent
      · rw [if_pos h3]
        exact ⟨_, _, rfl, ⟨⟨_, rfl, hvt⟩, hr⟩, rfl, Or.inl ⟨rfl, rfl, v, _, rfl, rfl, rfl, Or.inl ⟨rfl, rfl⟩⟩⟩
      · rw [if_neg h3]
        unfold Timer.lap
        rw [if_pos hr]
        refine ⟨_, _, rfl, ⟨⟨_, rfl, hvt⟩, hr⟩, rfl, Or.inl ⟨rfl, rfl, v, _, rfl, rfl, rfl, Or.inr ⟨?_, h3, rfl⟩⟩⟩
        rw [← hvt]
        rfl
  · refine ⟨b, [], ?_, ⟨⟨v, hv, hvt⟩, hr⟩, rfl, Or.inr ⟨h0, rfl, rfl⟩⟩
    unfold Bar.update
    rw [if_pos]
    unfold threadNum
    cases omp <;> simp_all

/-- The work a report stands for. -/
def Bar.workOf (b : Bar) (r : Report) : Nat :=
  match r.work, b.counts with
  | some w, _ => w
  | none, some v => (v.workDone + 1) % 2 ^ 32
  | none, none => 0

/-- A report is an update. -/
theorem report_eq (omp : Bool) (b : Bar) (r : Report) (total : Nat) (hb : Live total b) :
    b.report omp r = b.update omp r.thread r.team r.now (b.workOf r) := by
  obtain ⟨⟨v, hv, -⟩, -⟩ := hb
  unfold Bar.report Bar.workOf
  cases hw : r.work with
  | some w => rfl
  | none =>
    dsimp only
    rw [hv]
    dsimp only
    unfold Bar.incr
    rw [hv]
    dsimp only
    split_ifs with h0
    · unfold Bar.update
      rw [if_pos h0]
    · unfold Bar.update
      rw [if_neg h0, if_neg h0, hv]

/-- **C123 (the bar does no harm).** Started with a positive total, no history of reports by any threads
throws or is undefined; every percentage shown is at most 100, every bar is 50 characters long, and only
reports by thread 0 show anything. -/
theorem C123_no_failure (omp : Bool) (b b1 : Bar) (total : Nat) (t0 : ℚ) (ht : 0 < total)
    (hs : b.start total t0 = .ok b1) (rs : List Report) :
    ∃ b2 ls, b1.reports omp rs = .ok (b2, ls) ∧
      ∀ l ∈ ls, l.percent ≤ 100 ∧ l.bar.length = 50 ∧ ∃ r ∈ rs, r.thread = 0 ∧ r.team = l.threads := by
  have key : ∀ (rs : List Report) (b : Bar), Live total b → ∃ b2 ls, b.reports omp rs = .ok (b2, ls) ∧
      ∀ l ∈ ls, l.percent ≤ 100 ∧ ∃ r ∈ rs, r.thread = 0 ∧ r.team = l.threads := by
    intro rs
    induction rs with
    | nil => exact fun b _ => ⟨b, [], rfl, by simp⟩
    | cons r rs ih =>
      intro b hb
      obtain ⟨b2, ls, h1, h2, -, h3⟩ := update_live omp r.thread r.team r.now b (b.workOf r) total hb ht
      obtain ⟨b3, ls', h4, h5⟩ := ih b2 h2
      refine ⟨b3, ls ++ ls', ?_, ?_⟩
      · unfold Bar.reports
        rw [report_eq omp b r total hb, h1]
        simp only [andThen]
        rw [h4]
      · intro l hl
        rcases List.mem_append.1 hl with hl | hl
        · rcases h3 with ⟨_, ht0, v, v2, _, _, _, ⟨e, _⟩ | ⟨e, _, e2⟩⟩ | ⟨_, _, e⟩
          · rw [e] at hl; cases hl
          · rw [e2] at hl
            rw [List.mem_singleton.1 hl]
            refine ⟨?_, r, by simp, ht0, rfl⟩
            dsimp only
            rw [e]
            exact min_le_right _ _
          · rw [e] at hl; cases hl
        · obtain ⟨k1, r', hr', k2⟩ := h5 l hl
          exact ⟨k1, r', List.mem_cons_of_mem _ hr', k2⟩
  obtain ⟨b1', e, hl, -⟩ := start_live b total t0
  rw [e] at hs
  cases hs
  obtain ⟨b2, ls, h1, h2⟩ := key rs _ hl
  refine ⟨b2, ls, h1, fun l hl => ⟨(h2 l hl).1, ?_, (h2 l hl).2⟩⟩
  unfold Line.bar
  have := (h2 l hl).1
  simp only [List.length_append, List.length_replicate]
  omega

/-- The share of the work, if it fits 32 bits. -/
theorem share_eq {work team total : Nat} (h1 : work * team * 100 < 2 ^ 32) (h2 : work * team ≤ total) (ht : 0 < total) :
    min (share work team total) 100 = work * team * 100 / total := by
  have h3 : work * team * 100 / total ≤ 100 := by
    rw [Nat.div_le_iff_le_mul_add_pred ht]
    nlinarith
  unfold share
  rw [Nat.mod_eq_of_lt (show work * team < 2 ^ 32 by omega), Nat.mod_eq_of_lt h1,
    Nat.mod_eq_of_lt (show work * team * 100 / total < 2 ^ 8 by omega), min_eq_left h3]

/-- **C123 (what is shown).** If thread 0 of a team reports work whose hundredfold, over all threads of the
team, fits 32 bits and does not pass the total, then what is shown, if anything, is the percentage of the
work that the team has done when all its threads have done as much, rounded down, and the time left when
the work goes on at the same rate. -/
theorem C123_shown_partial (b : Bar) (total : Nat) (hb : Live total b) (ht : 0 < total) (team work : Nat) (now : ℚ)
    (h1 : work * team * 100 < 2 ^ 32) (h2 : work * team ≤ total) :
    ∃ b2 ls, Bar.update true 0 team now b work = .ok (b2, ls) ∧
      ∀ l ∈ ls, l.percent = work * team * 100 / total ∧ l.threads = team ∧
        (l.percent ≠ 0 → ∃ s, l.left = some s ∧ s * l.percent = (now - b.timer.startTime) * (100 - l.percent)) := by
  obtain ⟨b2, ls, h3, -, -, h4⟩ := update_live true 0 team now b work total hb ht
  refine ⟨b2, ls, h3, fun l hl => ?_⟩
  rcases h4 with ⟨_, _, v, v2, _, _, _, ⟨e, _⟩ | ⟨e, _, e2⟩⟩ | ⟨_, _, e⟩
  · rw [e] at hl; cases hl
  · rw [e2] at hl
    rw [List.mem_singleton.1 hl]
    dsimp only
    refine ⟨by rw [e, share_eq h1 h2 ht], rfl, fun h0 => ⟨_, if_neg h0, ?_⟩⟩
    have : (v2.oldPercent : ℚ) ≠ 0 := by exact_mod_cast h0
    rw [mul_right_comm, div_mul_cancel₀ _ this]
  · rw [e] at hl; cases hl

/-- **C123 (the percentages increase).** A loop outside parallel regions that reports its work, which never
decreases and does not pass the total, with a hundredfold total of less than 2^32, shows every percentage
at most once and in increasing order; 0 is never shown. -/
theorem C123_increasing_partial (b b1 : Bar) (total : Nat) (t0 : ℚ) (ht : 0 < total) (h32 : total * 100 < 2 ^ 32)
    (hs : b.start total t0 = .ok b1) (ws : List (Nat × ℚ)) (hm : (ws.map Prod.fst).Pairwise (· ≤ ·))
    (hle : ∀ w ∈ ws, w.1 ≤ total) :
    ∃ b2 ls, b1.reports true (ws.map fun w => ⟨some w.1, 0, 1, w.2⟩) = .ok (b2, ls) ∧
      (ls.map Line.percent).Pairwise (· < ·) ∧ ∀ l ∈ ls, 0 < l.percent := by
  have key : ∀ (ws : List (Nat × ℚ)) (b : Bar) (v : Counts), Live total b → b.counts = some v →
      (ws.map Prod.fst).Pairwise (· ≤ ·) → (∀ w ∈ ws, w.1 ≤ total) → (∀ w ∈ ws, v.oldPercent ≤ w.1 * 100 / total) →
      ∃ b2 ls, b.reports true (ws.map fun w => ⟨some w.1, 0, 1, w.2⟩) = .ok (b2, ls) ∧
        (ls.map Line.percent).Pairwise (· < ·) ∧ ∀ l ∈ ls, v.oldPercent < l.percent := by
    intro ws
    induction ws with
    | nil => exact fun b v _ _ _ _ _ => ⟨b, [], rfl, by simp, by simp⟩
    | cons w ws ih =>
      intro b v hb hv hm hle hold
      rw [List.map_cons, List.pairwise_cons] at hm
      obtain ⟨b2, ls, h1, h2, -, h3⟩ := update_live true 0 1 w.2 b w.1 total hb ht
      have hw := hle w (by simp)
      have hsh : min (share w.1 1 total) 100 = w.1 * 100 / total := by
        have := share_eq (work := w.1) (team := 1) (total := total) (by omega) (by omega) ht
        simpa using this
      have hstep : ∀ {b3 : Bar} {ls' : List Line}, b2.reports true (ws.map fun w => ⟨some w.1, 0, 1, w.2⟩) = .ok (b3, ls') →
          b.reports true ((w :: ws).map fun w => ⟨some w.1, 0, 1, w.2⟩) = .ok (b3, ls ++ ls') := by
        intro b3 ls' he
        rw [List.map_cons]
        unfold Bar.reports
        have : b.report true ⟨some w.1, 0, 1, w.2⟩ = .ok (b2, ls) := h1
        rw [this]
        simp only [andThen]
        rw [he]
      have hmono : ∀ x ∈ ws, w.1 * 100 / total ≤ x.1 * 100 / total := fun x hx =>
        Nat.div_le_div_right (Nat.mul_le_mul_right _ (hm.1 x.1 (List.mem_map_of_mem hx)))
      rcases h3 with ⟨_, _, v', v2, e0, ev2, _, ⟨e, e'⟩ | ⟨e, ene, e2⟩⟩ | ⟨hn, _, _⟩
      · rw [hv] at e0
        cases e0
        obtain ⟨b3, ls', k1, k2, k3⟩ := ih b2 v2 h2 ev2 hm.2 (fun x hx => hle x (List.mem_cons_of_mem _ hx))
          (fun x hx => e' ▸ hold x (List.mem_cons_of_mem _ hx))
        subst e
        exact ⟨b3, ls', hstep k1, k2, fun l hl => e' ▸ k3 l hl⟩
      · rw [hv] at e0
        cases e0
        rw [hsh] at e
        have hlt : v.oldPercent < v2.oldPercent := lt_of_le_of_ne (e ▸ hold w (by simp)) (Ne.symm ene)
        obtain ⟨b3, ls', k1, k2, k3⟩ := ih b2 v2 h2 ev2 hm.2 (fun x hx => hle x (List.mem_cons_of_mem _ hx))
          (fun x hx => e ▸ hmono x hx)
        refine ⟨b3, ls ++ ls', hstep k1, ?_, ?_⟩
        · subst e2
          rw [List.map_append, List.map_cons, List.map_nil, List.singleton_append, List.pairwise_cons]
          refine ⟨fun p hp => ?_, k2⟩
          obtain ⟨l, hl, rfl⟩ := List.mem_map.1 hp
          exact k3 l hl
        · intro l hl
          rcases List.mem_append.1 hl with hl | hl
          · rw [e2] at hl
            rw [List.mem_singleton.1 hl]
            exact hlt
          · exact hlt.trans (k3 l hl)
      · exact absurd ⟨rfl, rfl⟩ hn
  obtain ⟨b1', e, hl, hc, -⟩ := start_live b total t0
  rw [e] at hs
  cases hs
  exact key ws _ _ hl hc hm hle (fun _ _ => Nat.zero_le _)

/-- **C123 (work counted).** With OpenMP, `cellsProcessed` is the number of times thread 0 has used `++`
since `start`, modulo 2^32. -/
theorem C123_counted (b b1 : Bar) (total : Nat) (t0 : ℚ) (ht : 0 < total) (hs : b.start total t0 = .ok b1)
    (rs : List Report) (hn : ∀ r ∈ rs, r.work = none) :
    ∃ b2 ls, b1.reports true rs = .ok (b2, ls) ∧
      b2.cellsProcessed = .ok ((rs.countP fun r => r.thread == 0) % 2 ^ 32) := by
  have key : ∀ (rs : List Report) (b : Bar) (v : Counts), Live total b → b.counts = some v → v.workDone < 2 ^ 32 →
      (∀ r ∈ rs, r.work = none) → ∃ b2 ls, b.reports true rs = .ok (b2, ls) ∧
      b2.cellsProcessed = .ok ((v.workDone + rs.countP fun r => r.thread == 0) % 2 ^ 32) := by
    intro rs
    induction rs with
    | nil =>
      intro b v _ hv hlt _
      refine ⟨b, [], rfl, ?_⟩
      unfold Bar.cellsProcessed
      rw [hv]
      show Res.ok v.workDone = Res.ok ((v.workDone + 0) % 2 ^ 32)
      rw [Nat.add_zero, Nat.mod_eq_of_lt hlt]
    | cons r rs ih =>
      intro b v hb hv hlt hn
      obtain ⟨b2, ls, h1, h2, -, h3⟩ := update_live true r.thread r.team r.now b (b.workOf r) total hb ht
      have hwork : b.workOf r = (v.workDone + 1) % 2 ^ 32 := by
        unfold Bar.workOf
        rw [hn r (by simp), hv]
      have hstep : ∀ {b3 : Bar} {ls' : List Line}, b2.reports true rs = .ok (b3, ls') →
          b.reports true (r :: rs) = .ok (b3, ls ++ ls') := by
        intro b3 ls' he
        unfold Bar.reports
        rw [report_eq true b r total hb, h1]
        simp only [andThen]
        rw [he]
      have hn' : ∀ r ∈ rs, r.work = none := fun x hx => hn x (List.mem_cons_of_mem _ hx)
      rcases h3 with ⟨_, h0, v', v2, _, ev2, hw2, _⟩ | ⟨h0, e, _⟩
      · rw [hwork] at hw2
        obtain ⟨b3, ls', k1, k2⟩ := ih b2 v2 h2 ev2 (hw2 ▸ Nat.mod_lt _ (by norm_num)) hn'
        refine ⟨b3, _, hstep k1, ?_⟩
        rw [k2, hw2, List.countP_cons_of_pos (by simp [h0]), Nat.mod_add_mod]
        congr 2
        omega
      · subst e
        obtain ⟨b3, ls', k1, k2⟩ := ih _ v h2 hv hlt hn'
        refine ⟨b3, _, hstep k1, ?_⟩
        rw [k2, List.countP_cons_of_neg (by simpa using h0)]
  obtain ⟨b1', e, hl, hc, -⟩ := start_live b total t0
  rw [e] at hs
  cases hs
  obtain ⟨b2, ls, h1, h2⟩ := key rs _ _ hl hc (by norm_num) hn
  exact ⟨b2, ls, h1, by simpa using h2⟩

/-- **C123 (the time it took).** After `start` and any reports, `stop` gives the time since `start`, and so
does `time_it_took` afterwards; a second `stop` throws, as `time_it_took` before `stop` does. -/
theorem C123_stop (omp : Bool) (b b1 : Bar) (total : Nat) (t0 t1 t2 : ℚ) (ht : 0 < total)
    (hs : b.start total t0 = .ok b1) (rs : List Report) :
    ∃ b2 ls b3, b1.reports omp rs = .ok (b2, ls) ∧ b2.timeItTook = .throws ∧ b2.stop t1 = .ok (t1 - t0, b3) ∧
      b3.timeItTook = .ok (t1 - t0) ∧ b3.stop t2 = .throws := by
  have key : ∀ (rs : List Report) (b : Bar), Live total b → ∃ b2 ls, b.reports omp rs = .ok (b2, ls) ∧ b2.timer = b.timer := by
    intro rs
    induction rs with
    | nil => exact fun b _ => ⟨b, [], rfl, rfl⟩
    | cons r rs ih =>
      intro b hb
      obtain ⟨b2, ls, h1, h2, h3, -⟩ := update_live omp r.thread r.team r.now b (b.workOf r) total hb ht
      obtain ⟨b3, ls', h4, h5⟩ := ih b2 h2
      refine ⟨b3, ls ++ ls', ?_, h5.trans h3⟩
      unfold Bar.reports
      rw [report_eq omp b r total hb, h1]
      simp only [andThen]
      rw [h4]
  obtain ⟨b1', e, hl, _, hT⟩ := start_live b total t0
  rw [e] at hs
  cases hs
  obtain ⟨b2, ls, h1, h2⟩ := key rs _ hl
  rw [hT] at h2
  refine ⟨b2, ls, { b2 with timer := { startTime := t0, accumulated := 0 + (t1 - t0), running := false } }, h1, ?_, ?_, ?_, ?_⟩
  · unfold Bar.timeItTook
    rw [h2]
    rfl
  · unfold Bar.stop
    rw [h2]
    simp [Timer.stop, Timer.total, andThen]
  · simp [Bar.timeItTook, Timer.total]
  · simp [Bar.stop, Timer.stop, andThen]

/-- **C123, refuted (work is counted in every build).** Built without OpenMP the bar never shows anything
and `cellsProcessed` stays 0, whatever is reported. -/
theorem C123_serial_refuted (b b1 : Bar) (total : Nat) (t0 : ℚ) (hs : b.start total t0 = .ok b1) (rs : List Report) :
    ∃ b2, b1.reports false rs = .ok (b2, []) ∧ b2.cellsProcessed = .ok 0 := by
  obtain ⟨b1', e, _, hc, -⟩ := start_live b total t0
  rw [e] at hs
  cases hs
  have key : ∀ rs : List Report, b1.reports false rs = .ok (b1, []) := by
    intro rs
    induction rs with
    | nil => rfl
    | cons r rs ih =>
      unfold Bar.reports
      have : b1.report false r = .ok (b1, []) := by
        unfold Bar.report
        cases r.work with
        | none => rfl
        | some w => rfl
      rw [this]
      simp only [andThen]
      rw [ih]
      rfl
  refine ⟨b1, key rs, ?_⟩
  unfold Bar.cellsProcessed
  rw [hc]

/-- **C123, refuted (a bar does no harm).** With a total of zero the first report of thread 0 divides by
zero; so does one before `start` read numbers that are not set. -/
theorem C123_zero_refuted (b b1 : Bar) (t0 now : ℚ) (hs : b.start 0 t0 = .ok b1) (team : Nat) (work : Option Nat) :
    b1.report true ⟨work, 0, team, now⟩ = .ub ∧ Bar.report true {} ⟨work, 0, team, now⟩ = .ub := by
  obtain ⟨b1', e, _, hc, -⟩ := start_live b 0 t0
  rw [e] at hs
  cases hs
  cases work <;> simp [Bar.report, Bar.incr, Bar.update, threadNum, hc]

/-- **C123, refuted (a bar does no harm).** The count of data cells is kept when cells change (C36): a
raster that was all NoData when its data cells were first counted still has the count 0 when it has data,
and an algorithm that starts its bar with that count, as `Lindsay2016` does, divides by zero. -/
theorem C123_stale_refuted :
    let r : Raster Int := ⟨2, 1, [-1, -1], -1, none, true, 2⟩
    let r1 := r.numDataCells.2.setAll 5
    r1.data = [5, 5] ∧ r1.noData = -1 ∧ r1.numDataCells.1 = 0 ∧
    ∃ b1, Bar.start {} r1.numDataCells.1 0 = .ok b1 ∧ b1.report true ⟨none, 0, 1, 0⟩ = .ub := by
  refine ⟨by decide, by decide, by decide, _, rfl, by decide +kernel⟩

/-- **C123, refuted (what is shown).** With 50 000 000 cells, 42 949 673 of them done, 0 percent are shown
(after another percentage), in a line without a time. -/
theorem C123_overflow_refuted : share 42949673 1 50000000 = 0 ∧ 42949673 * 100 / 50000000 = 85 ∧
    Bar.update true 0 1 7 ⟨some ⟨50000000, 42750000, 250000, 42949672, 85⟩, { startTime := 0, running := true }⟩ 42949673 =
      .ok (⟨some ⟨50000000, 43000000, 250000, 42949673, 0⟩, { startTime := 0, running := true }⟩, [⟨0, none, 1⟩]) := by
  decide +kernel

/-- **C123, refuted (finished work is shown as 100 percent).** A loop over 401 cells that uses `++` for each
ends with 99 percent. -/
theorem C123_hundred_refuted : ∃ b1, Bar.start {} 401 0 = .ok b1 ∧
    (match b1.reports true (List.replicate 401 ⟨none, 0, 1, 0⟩) with
      | .ok (b2, ls) => (b2.counts.map Counts.workDone, (ls.map Line.percent).getLast?, (ls.map Line.percent).contains 100)
      | _ => (none, none, false)) = (some 401, some 99, false) :=
  ⟨_, rfl, by decide +kernel⟩

/-- **C123, refuted (work is counted).** Of the reports of two threads only those of one are counted. -/
theorem C123_threads_refuted : ∃ b1, Bar.start {} 20 0 = .ok b1 ∧
    (match b1.reports true ((List.range 20).map fun i => ⟨none, i % 2, 2, 0⟩) with
      | .ok (b2, _) => b2.cellsProcessed
      | _ => .throws) = .ok 10 :=
  ⟨_, rfl, by decide +kernel⟩

/-- **C123, refuted (a bar does no harm).** A report after `stop` throws. -/
theorem C123_after_stop_refuted : ∃ b1 b2, Bar.start {} 10 0 = .ok b1 ∧ b1.stop 1 = .ok (1, b2) ∧
    b2.report true ⟨none, 0, 1, 2⟩ = .throws :=
  ⟨_, ⟨some ⟨10, 0, 0, 0, 0⟩, { accumulated := 1 }⟩, rfl, by decide +kernel, by decide +kernel⟩

/-! ### Concrete runs -/

/-- A loop over ten cells, of which two seconds pass for each; the hypotheses of the theorems are met. -/
example : ∃ b1, Bar.start {} 4 0 = .ok b1 ∧
    (match b1.reports true [⟨some 0, 0, 1, 0⟩, ⟨some 1, 0, 1, 2⟩, ⟨some 1, 0, 1, 3⟩, ⟨some 3, 0, 1, 6⟩, ⟨some 4, 0, 1, 8⟩] with
      | .ok (_, ls) => ls
      | _ => []) = [⟨25, some 6, 1⟩, ⟨75, some 2, 1⟩, ⟨100, some 0, 1⟩] ∧ Live 4 b1 :=
  ⟨_, rfl, by decide +kernel, ⟨_, rfl, rfl⟩, rfl⟩

example : ([.start 1, .stop 3, .lap 4, .start 5, .start 6, .stop 8] : List TimerCall).flatMap timesOf = [1, 3, 4, 5, 6, 8] ∧
    (Timer.after [.start 1, .stop 3, .lap 4, .start 5, .start 6, .stop 8] {}).total = .ok 5 := by
  decide +kernel

example : (Line.bar ⟨7, none, 1⟩).take 5 = ['=', '=', '=', ' ', ' '] := by decide

end Progress
end RichDEM
