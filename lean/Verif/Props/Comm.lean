/-
Property theorem C76 (the conversation of programs/parallel_priority_flood and programs/parallel_d8_accum).
-/
import Verif.Comm.Thm
import Verif.Props.Parallel
import Verif.Props.ParD8

namespace RichDEM

/-! ## C76 -/

section
variable {τ R K P O : Type*} [DecidableEq τ] {J : CommJob τ R K P O} {W : Nat} {js : List τ}

/-- How it should end: every process has stopped, the result of every tile has been received exactly once, and for every tile, and
no other, one file has been written, from the tile, from what was kept of it and from what the producer worked out for it from
the results of all tiles. -/
structure Ended (J : CommJob τ R K P O) (W : Nat) (js : List τ) (s : CommS τ R K P O) : Prop where
  ok : s.ok = true
  producer : s.ph = .stop
  consumers : ∀ i, 1 ≤ i → i ≤ W → s.alive i = false
  received : s.order.Perm js
  files : ∀ t, s.files t =
    if t ∈ js then some (J.work2 t (J.keep t) (J.plan (fun u => if u ∈ js then some (J.work1 u) else none) t)) else none

/-- C76 (partial): no schedule of the processes and messages fails, none goes on for ever, and none gets stuck before the end that is
wanted.  Missing: results of different sizes with more than one consumer (refuted below). -/
theorem C76_protocol_partial (hnd : js.Nodup) (hW : 1 ≤ W) (hsz : W = 1 ∨ ∀ t ∈ js, ∀ u ∈ js, J.size1 t = J.size1 u)
    (es : List CEv) (s : CommS τ R K P O) (hrun : commRun J W js es .start = some s) :
    s.ok = true ∧ es.length ≤ 8 * js.length + 5 * W + 12 ∧ ((∃ e s', commStep J W js s e = some s') ∨ Ended J W js s) := by
  have H := CommInv.run hnd hW hsz es CommInv.start hrun
  refine ⟨H.ok, ?_, ?_⟩
  · have := rank_run hnd hW hsz es CommInv.start hrun
    rw [rank_start] at this
    omega
  · rcases H.live hnd hW with h1 | ⟨h1, h2⟩
    · exact Or.inl h1
    · right
      have hp := H.ph
      rw [h1] at hp
      have A : Half3 J W js s W := hp
      exact ⟨H.ok, h1, h2, A.perm, A.files⟩

theorem commRun_append (J : CommJob τ R K P O) (W : Nat) (js : List τ) : ∀ (es es' : List CEv) (s : CommS τ R K P O),
    commRun J W js (es ++ es') s = (commRun J W js es s).bind (commRun J W js es')
  | [], _, _ => rfl
  | e :: es, es', s => by
    rw [List.cons_append, commRun, commRun]
    cases commStep J W js s e with
    | none => rfl
    | some s1 => exact commRun_append J W js es es' s1

/-- C76 (partial, as above): every schedule, however it begins, can be carried on to the end. -/
theorem C76_completes_partial (hnd : js.Nodup) (hW : 1 ≤ W) (hsz : W = 1 ∨ ∀ t ∈ js, ∀ u ∈ js, J.size1 t = J.size1 u)
    (es : List CEv) (s : CommS τ R K P O) (hrun : commRun J W js es .start = some s) :
    ∃ es' s', commRun J W js (es ++ es') .start = some s' ∧ Ended J W js s' := by
  generalize hk : 8 * js.length + 5 * W + 12 - es.length = k
  induction k generalizing es s with
  | zero =>
    obtain ⟨h1, h2, h3 | h3⟩ := C76_protocol_partial hnd hW hsz es s hrun
    · obtain ⟨e, s', h4⟩ := h3
      have h5 : commRun J W js (es ++ [e]) .start = some s' := by
        rw [commRun_append, hrun]; simp only [Option.bind_some, commRun, h4]
      have := (C76_protocol_partial hnd hW hsz _ s' h5).2.1
      rw [List.length_append] at this
      simp only [List.length_singleton] at this
      omega
    · exact ⟨[], s, by rw [List.append_nil]; exact hrun, h3⟩
  | succ k ih =>
    obtain ⟨h1, h2, h3 | h3⟩ := C76_protocol_partial hnd hW hsz es s hrun
    · obtain ⟨e, s', h4⟩ := h3
      have h5 : commRun J W js (es ++ [e]) .start = some s' := by
        rw [commRun_append, hrun]; simp only [Option.bind_some, commRun, h4]
      obtain ⟨es', s2, h6, h7⟩ := ih (es ++ [e]) s' h5 (by rw [List.length_append]; simp only [List.length_singleton]; omega)
      exact ⟨e :: es', s2, by rw [← h6, List.append_assoc]; rfl, h7⟩
    · exact ⟨[], s, by rw [List.append_nil]; exact hrun, h3⟩

/-- Then nothing more can happen. -/
theorem ended_final (hnd : js.Nodup) (hW : 1 ≤ W) (hsz : W = 1 ∨ ∀ t ∈ js, ∀ u ∈ js, J.size1 t = J.size1 u)
    (es : List CEv) (s : CommS τ R K P O) (hrun : commRun J W js es .start = some s) (hE : Ended J W js s) (e : CEv) :
    commStep J W js s e = none := by
  have H := CommInv.run hnd hW hsz es CommInv.start hrun
  have hpr := probe_none H.probe (by rw [hE.producer]; rfl)
  unfold commStep
  rw [if_neg (by rw [hE.ok]; simp)]
  cases e with
  | prod => simp only [commProd, hE.producer]
  | work i =>
    simp only [commWork]
    rw [if_pos]
    by_cases h1 : i = 0
    · exact Or.inl h1
    · by_cases h2 : W < i
      · exact Or.inr (Or.inl h2)
      · exact Or.inr (Or.inr (hE.consumers i (by omega) (by omega)))
  | probe i => simp [commProbe, hE.producer, waiting]
  | recv j => simp only [commRecv, hpr]

/-- C76 refuted for results of different sizes: with two consumers, the message that `CommRecv` takes may come from another consumer
than the one whose message it measured; if it is longer, the program ends with an error. -/
theorem C76_probe_race_refuted (J : CommJob τ R K P O) (t u : τ) (hlt : J.size1 t < J.size1 u) :
    ∃ es s, commRun J 2 [t, u] es .start = some s ∧ s.ok = false := by
  refine ⟨[.prod, .prod, .prod, .work 1, .probe 1, .work 2, .recv 2], ?_⟩
  have h2 : (2 : Nat) ≠ 1 := by decide
  simp [commRun, commStep, commProd, commWork, commProbe, commRecv, commDo, commDest, CommS.start, waiting, replySize, hlt, Function.update]

end

/-- Two consumers, three tiles; a complete schedule. -/
def commEx : CommJob Nat Nat Nat Nat Nat :=
  { work1 := fun t => 10 * t, size1 := fun _ => 8, keep := fun t => t + 1, work2 := fun _ k p => 100 * p + k
    plan := fun g t => t + (g 5).getD 0 + (g 7).getD 0 + (g 9).getD 0
    size2 := 4 }

def commExRun : List CEv :=
  [.prod, .prod, .work 2, .prod, .prod, .probe 2, .work 1, .work 1, .recv 1, .probe 1, .recv 1, .probe 2, .recv 2,
   .prod, .prod, .work 1, .prod, .prod, .work 2, .prod, .work 1, .probe 1, .recv 2, .probe 1, .recv 1, .probe 1, .recv 1,
   .prod, .prod, .work 1, .prod, .prod, .work 2]

example : ((commRun commEx 2 [5, 7, 9] commExRun .start).map (fun s => (s.ok, decide (s.ph = .stop), s.order)) = some (true, true, [5, 9, 7])) ∧
    ((commRun commEx 2 [5, 7, 9] commExRun .start).map (fun s => ([5, 7, 9].map s.files, [1, 2].map s.alive)) =
      some ([some 21506, some 21708, some 21910], [false, false])) := by decide +kernel

example : [5, 7, 9].Nodup ∧ 1 ≤ 2 ∧ ((2 : Nat) = 1 ∨ ∀ t ∈ [5, 7, 9], ∀ u ∈ [5, 7, 9], commEx.size1 t = commEx.size1 u) := by decide

/-! ### The two programs -/

section
variable {E : Type*} [LinearOrder E]

/-- programs/parallel_priority_flood/main.cpp:604-797: the jobs of the tiled Priority-Flood.  `size1` is the size of a result in bytes. -/
def fillJob (T : Tiling) (pq : Nat × Nat → PQ (E × Cell) zLt) (vq : PQ (E × Nat) vLt) (lo zero : E) (junk : PJob E) (dem : Cell → E)
    (size1 : PJob E → Nat) : CommJob (Nat × Nat) (PJob E) (ZL E) (Nat × (Nat → E)) (Cell → E) :=
  { work1 := tileJob T pq dem
    size1 := fun t => size1 (tileJob T pq dem t)
    keep := tileFile T pq dem
    plan := fun g t =>
      let M := masterGraph (fun u => (g u).getD junk) T.gh T.gw
      (M.offs t, (vFlood vq lo zero M.g).gelev)
    work2 := fun _ k p => secondRound k p.1 p.2
    size2 := 40 }

theorem nodup_tiles {gh gw : Nat} : (tileList gh gw).Nodup := List.Nodup.product List.nodup_range List.nodup_range

theorem collect_grid {A : Type*} {js order : List (Nat × Nat)} (ho : order.Perm js) (f : Nat × Nat → A) (d : A) :
    collect order f d = fun u => ((if u ∈ js then some (f u) else none) : Option A).getD d := by
  have key : ∀ (L : List (Nat × Nat)) (m : Nat × Nat → A) (u : Nat × Nat),
      L.foldl (fun m t => Function.update m t (f t)) m u = if u ∈ L then f u else m u := by
    intro L
    induction L with
    | nil => intro m u; simp
    | cons t L ih =>
      intro m u
      rw [List.foldl_cons, ih]
      by_cases h1 : u ∈ L
      · simp [h1]
      · by_cases h2 : u = t
        · subst h2; simp [h1]
        · simp [h1, h2]
  funext u
  rw [collect, key]
  by_cases h1 : u ∈ js
  · rw [if_pos (ho.mem_iff.2 h1), if_pos h1]; rfl
  · rw [if_neg (fun h2 => h1 (ho.mem_iff.1 h2)), if_neg h1]; rfl

/-- C76 with C49: however the processes are scheduled, the files written by the tiled Priority-Flood hold the water level of the whole raster.
(With one consumer, or if the sizes of the first-round results happen to be equal.) -/
theorem C76_priority_flood_partial (T : Tiling) (pq : Nat × Nat → PQ (E × Cell) zLt) (vq : PQ (E × Nat) vLt) (lo zero : E) (junk : PJob E)
    (dem : Cell → E) (size1 : PJob E → Nat) (hW : 0 < T.W) (hH : 0 < T.H) (hbw : 0 < T.bw) (hbh : 0 < T.bh)
    (hlo : ∀ c, InGrid T.W T.H c → lo ≤ dem c) (N : Nat) (hN : 1 ≤ N)
    (hsz : N = 1 ∨ ∀ t ∈ tileList T.gh T.gw, ∀ u ∈ tileList T.gh T.gw, size1 (tileJob T pq dem t) = size1 (tileJob T pq dem u))
    (es : List CEv) (s : CommS (Nat × Nat) (PJob E) (ZL E) (Nat × (Nat → E)) (Cell → E))
    (hrun : commRun (fillJob T pq vq lo zero junk dem size1) N (tileList T.gh T.gw) es .start = some s)
    (hend : ∀ e, commStep (fillJob T pq vq lo zero junk dem size1) N (tileList T.gh T.gw) s e = none) :
    ∀ t, t.1 < T.gh → t.2 < T.gw → ∃ out, s.files t = some out ∧
      ∀ c, InGrid (T.tw t.2) (T.th t.1) c → IsWaterLevel T.W T.H .D8 dem (T.stored t c) (out c) := by
  intro t h1 h2
  obtain ⟨_, _, ⟨e, s', h3⟩ | E1⟩ := C76_protocol_partial nodup_tiles hN hsz es s hrun
  · rw [hend e] at h3; cases h3
  · refine ⟨fun c => (parallelFill T pq vq lo zero s.order junk dem).out t c, ?_, ?_⟩
    · rw [E1.files, if_pos (mem_tileList.2 ⟨h1, h2⟩)]
      simp only [fillJob, parallelFill, collect_grid E1.received]
      congr!
    · intro c hc
      exact ((C49_parallel_is_fill T pq vq lo zero s.order junk dem hW hH hbw hbh E1.received hlo).2.2.2 t c ⟨h1, h2, hc⟩).2.2

end

/-- programs/parallel_d8_accum/main.cpp:908-1112: the jobs of the tiled flow accumulation; `none` for a first-round result: the consumer threw
an exception. -/
def accumJob (q : AnyQ PNode) (T : Tiling) (null : Nat × Nat → Bool) (file : Nat × Nat → Cell → Nat) (nd : Nat) (size1 : Option PDJob → Nat) :
    CommJob (Nat × Nat) (Option PDJob) (Cell → Nat) (Nat × (Nat → Int)) (Option (Cell → Int)) :=
  { work1 := pdJob T null file nd
    size1 := fun t => size1 (pdJob T null file nd t)
    keep := pdLoad T file
    plan := fun g t =>
      let jobs := fun u => ((g u).getD none).getD PDJob.empty
      ((jobs t).size, fun s => (pdCalc q T null jobs).inn (t, s))
    work2 := fun t k p => (pdSecond (T.tw t.2) (T.th t.1) k nd p.1 p.2).map fun acc =>
      fun c => acc (flipCell (T.fh t) (T.fv t) (T.tw t.2) (T.th t.1) c)
    size2 := 40 }

section
variable {T : Tiling} {null : Nat × Nat → Bool} {fd : Cell → Nat} {nd : Nat}

/-- C76 with C74: however the processes are scheduled, the files written by the tiled flow accumulation hold what `d8_flow_accum` computes for
the whole raster.  `size1` gives the size of a message from the number of perimeter cells, main.cpp:178-208. -/
theorem C76_flow_accum_partial (q : AnyQ PNode) (qs : AnyQ Cell) (P : PDOk T null fd nd) (size1 : Option PDJob → Nat) (N : Nat) (hN : 1 ≤ N)
   
    (hsz : N = 1 ∨ ∀ t ∈ (tileList T.gh T.gw).filter (fun t => !null t), ∀ u ∈ (tileList T.gh T.gw).filter (fun t => !null t),
      size1 (pdJob T null (fun t c => fd (T.stored t c)) nd t) = size1 (pdJob T null (fun t c => fd (T.stored t c)) nd u))
    (es : List CEv) (s : CommS (Nat × Nat) (Option PDJob) (Cell → Nat) (Nat × (Nat → Int)) (Option (Cell → Int)))
    (hrun : commRun (accumJob q T null (fun t c => fd (T.stored t c)) nd size1) N ((tileList T.gh T.gw).filter (fun t => !null t)) es .start = some s)
    (hend : ∀ e, commStep (accumJob q T null (fun t c => fd (T.stored t c)) nd size1) N ((tileList T.gh T.gw).filter (fun t => !null t)) s e = none)
    (t : Nat × Nat) (ht : t.1 < T.gh ∧ t.2 < T.gw) (hn : null t = false) :
    ∃ out, s.files t = some (some out) ∧ ∀ c, T.InTile t c → out c = d8FlowAccum qs T.W T.H fd nd (T.stored t c) := by
  obtain ⟨_, _, ⟨e, s', h3⟩ | E1⟩ := C76_protocol_partial (nodup_tiles.filter _) hN hsz es s hrun
  · rw [hend e] at h3; cases h3
  · obtain ⟨out, h1, h2⟩ := C74_equals_sequential_partial q qs s.order P E1.received t ht hn
    refine ⟨out, ?_, h2⟩
    rw [E1.files, if_pos (List.mem_filter.2 ⟨mem_tileList.2 ht, by simp [hn]⟩), ← h1]
    obtain ⟨jobs, hj, -⟩ := pdCollect_ok P E1.received
    have hj2 : jobs = fun u => (((if u ∈ (tileList T.gh T.gw).filter (fun t => !null t) then
        some (pdJob T null (fun t c => fd (T.stored t c)) nd u) else none) : Option (Option PDJob)).getD none).getD PDJob.empty := by
      have hall : ∀ u ∈ s.order, pdJob T null (fun t c => fd (T.stored t c)) nd u =
          some ((pdJob T null (fun t c => fd (T.stored t c)) nd u).getD PDJob.empty) := by
        intro u hu
        have hne : pdJob T null (fun t c => fd (T.stored t c)) nd u ≠ none := by
          intro h4
          have := foldlM_none (f := fun (m : Nat × Nat → PDJob) t => (pdJob T null (fun t c => fd (T.stored t c)) nd t).map (fun j => Function.update m t j))
            hu (fun b => by rw [h4]; rfl) (fun _ => PDJob.empty)
          rw [pdCollect, this] at hj
          cases hj
        obtain ⟨j, hj⟩ := Option.ne_none_iff_exists'.1 hne
        rw [hj]; rfl
      obtain ⟨m, h5, h6, h7⟩ := foldlM_tiles _ _ (fun _ => PDJob.empty) s.order (fun _ => PDJob.empty) hall
      rw [pdCollect, h5] at hj
      rw [← Option.some.inj hj]
      funext u
      by_cases hu : u ∈ s.order
      · rw [h6 u hu, if_pos (E1.received.mem_iff.1 hu)]; rfl
      · rw [h7 u hu, if_neg (fun h8 => hu (E1.received.mem_iff.2 h8))]; rfl
    unfold parallelAccum
    rw [hj]
    simp only [Option.bind_some, accumJob, hj2]
    congr!

/-- Such schedules exist: here for the 6 by 6 example of C74 in 2 by 2 blocks with three consumers and messages of equal size. -/
example : ∃ es s, commRun (accumJob (lifo PNode) pdT pdNull (fun t c => pdFd (pdT.stored t c)) 255 (fun _ => 100)) 3
      ((tileList pdT.gh pdT.gw).filter (fun t => !pdNull t)) es .start = some s ∧
    (∀ e, commStep (accumJob (lifo PNode) pdT pdNull (fun t c => pdFd (pdT.stored t c)) 255 (fun _ => 100)) 3
      ((tileList pdT.gh pdT.gw).filter (fun t => !pdNull t)) s e = none) ∧
    ∃ out, s.files (2, 1) = some (some out) ∧ ∀ c, pdT.InTile (2, 1) c → out c = d8FlowAccum (fifo Cell) pdT.W pdT.H pdFd 255 (pdT.stored (2, 1) c) := by
  obtain ⟨es, s, h1, h2⟩ := C76_completes_partial (J := accumJob (lifo PNode) pdT pdNull (fun t c => pdFd (pdT.stored t c)) 255 (fun _ => 100))
    (W := 3) (js := (tileList pdT.gh pdT.gw).filter (fun t => !pdNull t)) (nodup_tiles.filter _) (by decide) (Or.inr fun _ _ _ _ => rfl) [] _ rfl
  rw [List.nil_append] at h1
  have h3 := ended_final (nodup_tiles.filter _) (by decide) (Or.inr fun _ _ _ _ => rfl) es s h1 h2
  exact ⟨es, s, h1, h3, C76_flow_accum_partial (lifo PNode) (fifo Cell) pdT_ok (fun _ => 100) 3 (by decide) (Or.inr fun _ _ _ _ => rfl) es s h1 h3
    (2, 1) (by decide +kernel) (by decide)⟩

end

end RichDEM
