/-
Invariant of the conversation of `Verif/Comm/Model.lean`.
-/
import Verif.Comm.Model
import Mathlib.Data.List.Perm.Subperm
import Mathlib.Algebra.BigOperators.Group.Finset.Basic
import Mathlib.Algebra.Order.BigOperators.Group.Finset
import Mathlib.Tactic.Ring

namespace RichDEM

section
variable {τ R K P O : Type*} [DecidableEq τ] (J : CommJob τ R K P O) (W : Nat) (js : List τ)

/-- The consumer responsible for a tile. -/
def tileDest (t : τ) : Nat := commDest W (js.idxOf t)

/-- One round of jobs: `k` jobs have been sent, those in `done` are answered and received, the others are on their way
(`ib`: not yet worked on; `ob`: worked on). -/
structure Rnd (mk : τ → CMsg τ P) (rp : τ → CReply τ R) (k : Nat) (done : List τ) (s : CommS τ R K P O)
    (ib ob : Nat → List τ) : Prop where
  hib : ∀ i, s.inbox i = (ib i).map mk
  hob : ∀ i, s.outbox i = (ob i).map rp
  part : ∀ t, t ∈ js.take k ↔ (t ∈ done ∨ ∃ i, t ∈ ob i ++ ib i)
  dst : ∀ i t, t ∈ ob i ++ ib i → i = tileDest W js t
  nd : ∀ i, (ob i ++ ib i).Nodup
  dd : done.Nodup
  dj : ∀ t i, t ∈ done → t ∉ ob i ++ ib i

/-- The first round's effects. -/
structure Half1 (s : CommS τ R K P O) (ob : Nat → List τ) : Prop where
  grid : ∀ t, s.grid t = if t ∈ s.order then some (J.work1 t) else none
  store : ∀ t i, t ∈ s.order ∨ t ∈ ob i → s.store (tileDest W js t) t = some (J.keep t)
  files : ∀ t, s.files t = none
  alive : ∀ i, s.alive i = true

/-- The grid of all results. -/
def fullGrid (t : τ) : Option R := if t ∈ js then some (J.work1 t) else none

/-- The second round's effects. -/
structure Half2 (s : CommS τ R K P O) (done : List τ) (ob : Nat → List τ) : Prop where
  perm : s.order.Perm js
  grid : s.grid = fullGrid J js
  store : ∀ t ∈ js, t ∉ done → (∀ i, t ∉ ob i) → s.store (tileDest W js t) t = some (J.keep t)
  files : ∀ t, (t ∈ done ∨ ∃ i, t ∈ ob i) → s.files t = some (J.work2 t (J.keep t) (J.plan (fullGrid J js) t))
  none : ∀ t, t ∉ js → s.files t = none
  alive : ∀ i, s.alive i = true

/-- After both rounds, `n` consumers have been told to stop. -/
structure Half3 (s : CommS τ R K P O) (n : Nat) : Prop where
  perm : s.order.Perm js
  grid : s.grid = fullGrid J js
  files : ∀ t, s.files t = if t ∈ js then some (J.work2 t (J.keep t) (J.plan (fullGrid J js) t)) else none
  le : n ≤ W
  inbox : ∀ i, s.inbox i = if 1 ≤ i ∧ i ≤ n then [.kill] else []
  outbox : ∀ i, s.outbox i = []
  alive : ∀ i, ¬(1 ≤ i ∧ i ≤ n) → s.alive i = true

/-- The invariant, by phase. -/
def PhaseInv (s : CommS τ R K P O) : CPhase → Prop
  | .send1 k => k ≤ js.length ∧ s.order = [] ∧
      ∃ ib ob, Rnd W js .first (fun t => .done1 t (J.work1 t)) k s.order s ib ob ∧ Half1 J W js s ob
  | .recv1 r => s.order.length + r = js.length ∧
      ∃ ib ob, Rnd W js .first (fun t => .done1 t (J.work1 t)) js.length s.order s ib ob ∧ Half1 J W js s ob
  | .send2 k => k ≤ js.length ∧
      ∃ ib ob, Rnd W js (fun t => .second t (J.plan (fullGrid J js) t)) (fun t => .done2 t) k [] s ib ob ∧ Half2 J W js s [] ob
  | .recv2 r => ∃ done ib ob, done.length + r = js.length ∧
      Rnd W js (fun t => .second t (J.plan (fullGrid J js) t)) (fun t => .done2 t) js.length done s ib ob ∧ Half2 J W js s done ob
  | .kill n => Half3 J W js s n
  | .stop => Half3 J W js s W

/-- The probe saw a message that is still the first of its queue. -/
def ProbeOk (s : CommS τ R K P O) : Prop :=
  ∀ sz, s.probe = some sz → waiting s.ph = true ∧ ∃ i m rest, s.outbox i = m :: rest ∧ sz = replySize J m

/-- The invariant. -/
structure CommInv (s : CommS τ R K P O) : Prop where
  ok : s.ok = true
  probe : ProbeOk J s
  ph : PhaseInv J W js s s.ph

variable {J W js}

theorem mem_take_succ {k : Nat} {t : τ} (hk : js[k]? = some t) (u : τ) : u ∈ js.take (k + 1) ↔ u ∈ js.take k ∨ u = t := by
  rw [List.take_add_one, hk]; simp

theorem idxOf_of_get (hnd : js.Nodup) {k : Nat} {t : τ} (hk : js[k]? = some t) : js.idxOf t = k := by
  obtain ⟨hlt, he⟩ := List.getElem?_eq_some_iff.1 hk
  rw [← he]; exact hnd.idxOf_getElem k hlt

theorem not_mem_take (hnd : js.Nodup) {k : Nat} {t : τ} (hk : js[k]? = some t) : t ∉ js.take k := by
  obtain ⟨hlt, he⟩ := List.getElem?_eq_some_iff.1 hk
  intro hm
  obtain ⟨i, hi, e⟩ := List.getElem_of_mem hm
  rw [List.getElem_take] at e
  have h1 : i < k := by rw [List.length_take] at hi; omega
  have := (hnd.getElem_inj_iff (i := i) (j := k) (hi := by omega) (hj := hlt)).1 (e.trans he.symm)
  omega

theorem tileDest_get (hnd : js.Nodup) {k : Nat} {t : τ} (hk : js[k]? = some t) : tileDest W js t = commDest W k := by
  rw [tileDest, idxOf_of_get hnd hk]

section
variable {mk : τ → CMsg τ P} {rp : τ → CReply τ R} {k : Nat} {done : List τ} {s : CommS τ R K P O} {ib ob : Nat → List τ}

theorem Rnd.mem_js (H : Rnd W js mk rp k done s ib ob) {t : τ} (ht : t ∈ done ∨ ∃ i, t ∈ ob i ++ ib i) : t ∈ js :=
  List.mem_of_mem_take ((H.part t).2 ht)

/-- Sending the next job. -/
theorem Rnd.send (hnd : js.Nodup) (H : Rnd W js mk rp k done s ib ob) {t : τ} (hk : js[k]? = some t) (s' : CommS τ R K P O)
    (hi : s'.inbox = Function.update s.inbox (commDest W k) (s.inbox (commDest W k) ++ [mk t])) (ho : s'.outbox = s.outbox) :
    Rnd W js mk rp (k + 1) done s' (Function.update ib (commDest W k) (ib (commDest W k) ++ [t])) ob := by
  have hd := tileDest_get (W := W) hnd hk
  have hnt := not_mem_take hnd hk
  have hnew : ∀ i, t ∉ ob i ++ ib i := fun i hm => hnt ((H.part t).2 (Or.inr ⟨i, hm⟩))
  have hnd' : t ∉ done := fun hm => hnt ((H.part t).2 (Or.inl hm))
  have key : ∀ i u, u ∈ ob i ++ (Function.update ib (commDest W k) (ib (commDest W k) ++ [t])) i ↔
      u ∈ ob i ++ ib i ∨ (u = t ∧ i = commDest W k) := by
    intro i u
    by_cases e : i = commDest W k
    · subst e; simp [or_assoc]
    · rw [Function.update_of_ne e]; simp [e]
  refine ⟨?_, ?_, ?_, ?_, ?_, H.dd, ?_⟩
  · intro i
    rw [hi]
    by_cases e : i = commDest W k
    · subst e; simp [H.hib]
    · rw [Function.update_of_ne e, Function.update_of_ne e]; exact H.hib i
  · intro i; rw [ho]; exact H.hob i
  · intro u
    rw [mem_take_succ hk, H.part]
    constructor
    · rintro ((h1 | ⟨i, h1⟩) | rfl)
      · exact Or.inl h1
      · exact Or.inr ⟨i, (key i u).2 (Or.inl h1)⟩
      · exact Or.inr ⟨commDest W k, (key _ u).2 (Or.inr ⟨rfl, rfl⟩)⟩
    · rintro (h1 | ⟨i, h1⟩)
      · exact Or.inl (Or.inl h1)
      · rcases (key i u).1 h1 with h2 | ⟨h2, _⟩
        · exact Or.inl (Or.inr ⟨i, h2⟩)
        · exact Or.inr h2
  · intro i u hu
    rcases (key i u).1 hu with h2 | ⟨h2, h3⟩
    · exact H.dst i u h2
    · rw [h2, hd, h3]
  · intro i
    by_cases e : i = commDest W k
    · subst e
      rw [Function.update_self, ← List.append_assoc]
      rw [List.nodup_append]
      refine ⟨H.nd _, by simp, ?_⟩
      intro a ha b hb
      rw [List.mem_singleton] at hb
      subst hb
      rintro rfl
      exact hnew _ ha
    · rw [Function.update_of_ne e]; exact H.nd i
  · intro u i hu hm
    rcases (key i u).1 hm with h2 | ⟨h2, _⟩
    · exact H.dj u i hu h2
    · subst h2; exact hnd' hu

/-- A consumer works on its next job. -/
theorem Rnd.work (H : Rnd W js mk rp k done s ib ob) {i : Nat} {t : τ} {rest : List τ} (hi : ib i = t :: rest)
    (s' : CommS τ R K P O) (h1 : s'.inbox = Function.update s.inbox i (rest.map mk))
    (h2 : s'.outbox = Function.update s.outbox i (s.outbox i ++ [rp t])) :
    Rnd W js mk rp k done s' (Function.update ib i rest) (Function.update ob i (ob i ++ [t])) := by
  have key : ∀ c, (Function.update ob i (ob i ++ [t])) c ++ (Function.update ib i rest) c = ob c ++ ib c := by
    intro c
    by_cases e : c = i
    · subst e; simp [hi]
    · simp [Function.update_of_ne e]
  refine ⟨?_, ?_, ?_, ?_, ?_, H.dd, ?_⟩
  · intro c
    rw [h1]
    by_cases e : c = i
    · subst e; simp
    · rw [Function.update_of_ne e, Function.update_of_ne e]; exact H.hib c
  · intro c
    rw [h2]
    by_cases e : c = i
    · subst e; simp [H.hob]
    · rw [Function.update_of_ne e, Function.update_of_ne e]; exact H.hob c
  · intro u; simp only [key]; exact H.part u
  · intro c u; rw [key]; exact H.dst c u
  · intro c; rw [key]; exact H.nd c
  · intro u c; rw [key]; exact H.dj u c

/-- The producer receives a reply. -/
theorem Rnd.recv (H : Rnd W js mk rp k done s ib ob) {i : Nat} {t : τ} {rest : List τ} (hi : ob i = t :: rest)
    (s' : CommS τ R K P O) (h1 : s'.inbox = s.inbox) (h2 : s'.outbox = Function.update s.outbox i (rest.map rp)) :
    Rnd W js mk rp k (done ++ [t]) s' ib (Function.update ob i rest) := by
  have hm : t ∈ ob i ++ ib i := by rw [hi]; simp
  have hnd := H.nd i
  rw [hi, List.cons_append, List.nodup_cons] at hnd
  have htd : t ∉ done := fun hd => H.dj t i hd hm
  have key : ∀ c u, u ∈ (Function.update ob i rest) c ++ ib c ↔ u ∈ ob c ++ ib c ∧ u ≠ t := by
    intro c u
    by_cases e : c = i
    · subst e
      rw [Function.update_self, hi]
      constructor
      · intro hu
        refine ⟨?_, ?_⟩
        · rw [List.cons_append]; exact List.mem_cons_of_mem _ hu
        · rintro rfl; exact hnd.1 hu
      · rintro ⟨hu, hne⟩
        rw [List.cons_append, List.mem_cons] at hu
        exact hu.resolve_left hne
    · rw [Function.update_of_ne e]
      constructor
      · intro hu
        refine ⟨hu, ?_⟩
        rintro rfl
        exact e ((H.dst c u hu).trans (H.dst i u hm).symm)
      · exact fun hu => hu.1
  refine ⟨?_, ?_, ?_, ?_, ?_, ?_, ?_⟩
  · intro c; rw [h1]; exact H.hib c
  · intro c
    rw [h2]
    by_cases e : c = i
    · subst e; simp
    · rw [Function.update_of_ne e, Function.update_of_ne e]; exact H.hob c
  · intro u
    rw [H.part]
    simp only [key, List.mem_append, List.mem_singleton]
    constructor
    · rintro (h1 | ⟨c, h1⟩)
      · exact Or.inl (Or.inl h1)
      · by_cases e : u = t
        · exact Or.inl (Or.inr e)
        · exact Or.inr ⟨c, h1, e⟩
    · rintro ((h1 | rfl) | ⟨c, h1, _⟩)
      · exact Or.inl h1
      · exact Or.inr ⟨i, List.mem_append.1 hm⟩
      · exact Or.inr ⟨c, h1⟩
  · intro c u hu; exact H.dst c u ((key c u).1 hu).1
  · intro c
    by_cases e : c = i
    · subst e; rw [Function.update_self]; exact hnd.2
    · rw [Function.update_of_ne e]; exact H.nd c
  · rw [List.nodup_append]
    refine ⟨H.dd, by simp, ?_⟩
    intro a ha b hb
    rw [List.mem_singleton] at hb
    subst hb
    rintro rfl
    exact htd ha
  · intro u c hu hm'
    obtain ⟨h3, h4⟩ := (key c u).1 hm'
    rw [List.mem_append, List.mem_singleton] at hu
    rcases hu with hu | hu
    · exact H.dj u c hu h3
    · exact h4 hu

/-- When everything is received, nothing is on its way. -/
theorem Rnd.all_done (hnd : js.Nodup) (H : Rnd W js mk rp js.length done s ib ob) (hl : done.length = js.length) :
    done.Perm js ∧ (∀ i, ib i = []) ∧ (∀ i, ob i = []) := by
  have hsub : ∀ t ∈ done, t ∈ js := fun t ht => H.mem_js (Or.inl ht)
  have hp : done.Perm js := by
    have := H.dd.subperm (List.Subset.trans (fun t ht => hsub t ht) (List.Subset.refl js))
    exact this.perm_of_length_le (by omega)
  have he : ∀ i, ob i ++ ib i = [] := by
    intro i
    by_contra hne
    obtain ⟨t, ht⟩ := List.exists_mem_of_ne_nil _ hne
    exact H.dj t i (hp.mem_iff.2 (H.mem_js (Or.inr ⟨i, ht⟩))) ht
  refine ⟨hp, fun i => (List.append_eq_nil_iff.1 (he i)).2, fun i => (List.append_eq_nil_iff.1 (he i)).1⟩

/-- While something is missing, it is on its way. -/
theorem Rnd.missing (H : Rnd W js mk rp js.length done s ib ob) (hl : done.length < js.length) (hnd : js.Nodup) :
    ∃ i, 1 ≤ i ∧ (0 < W → i ≤ W) ∧ (ob i ≠ [] ∨ ib i ≠ []) := by
  by_contra hno
  have hsub : js ⊆ done := by
    intro t ht
    rcases (H.part t).1 (by rw [List.take_length]; exact ht) with h1 | ⟨i, h1⟩
    · exact h1
    · refine absurd ⟨i, ?_, ?_, ?_⟩ hno
      · rw [H.dst i t h1]; exact Nat.le_add_left 1 _
      · intro hW; rw [H.dst i t h1]; exact Nat.mod_lt _ hW
      · rcases List.mem_append.1 h1 with h2 | h2
        · exact Or.inl (List.ne_nil_of_mem h2)
        · exact Or.inr (List.ne_nil_of_mem h2)
  exact absurd (hnd.subperm hsub).length_le (by omega)

end

/-- The results of the first round all have the same size, or there is one consumer only. -/
def OneSize (J : CommJob τ R K P O) (W : Nat) (js : List τ) : Prop := W = 1 ∨ ∀ t ∈ js, ∀ u ∈ js, J.size1 t = J.size1 u

theorem CommInv.start : CommInv J W js (CommS.start : CommS τ R K P O) := by
  refine ⟨rfl, ?_, ?_⟩
  · intro sz h1; exact absurd h1 (by simp [CommS.start])
  · refine ⟨Nat.zero_le _, rfl, fun _ => [], fun _ => [], ⟨fun _ => rfl, fun _ => rfl, ?_, ?_, ?_, ?_, ?_⟩, ⟨?_, ?_, fun _ => rfl, fun _ => rfl⟩⟩ <;>
      simp [CommS.start]

theorem probe_none {s : CommS τ R K P O} (H : ProbeOk J s) (hw : waiting s.ph = false) : s.probe = none := by
  cases hp : s.probe with
  | none => rfl
  | some sz => have := (H sz hp).1; rw [hw] at this; cases this

theorem probeOk_none {s : CommS τ R K P O} (h1 : s.probe = none) : ProbeOk J s := by
  intro sz h2; rw [h1] at h2; cases h2

/-- A step of the producer's own code. -/
theorem CommInv.prod (hnd : js.Nodup) (hW : 1 ≤ W) {s s' : CommS τ R K P O} (H : CommInv J W js s) (hs : commProd J W js s = some s') :
    CommInv J W js s' := by
  have hok := H.ok
  have hp := H.ph
  have hpr : waiting s.ph = false → s.probe = none := probe_none H.probe
  unfold commProd at hs
  cases hph : s.ph with
  | send1 k =>
    rw [hph] at hs hp hpr
    obtain ⟨hk, ho, ib, ob, R1, A⟩ := hp
    cases hj : js[k]? with
    | some t =>
      simp only [hj, if_neg (show W ≠ 0 by omega), Option.some.injEq] at hs
      subst hs
      obtain ⟨hlt, _⟩ := List.getElem?_eq_some_iff.1 hj
      exact ⟨hok, probeOk_none (hpr rfl), hlt, ho, _, ob, R1.send hnd hj _ rfl rfl, ⟨A.grid, A.store, A.files, A.alive⟩⟩
    | none =>
      simp only [hj, Option.some.injEq] at hs
      subst hs
      have : k = js.length := by have := List.getElem?_eq_none_iff.1 hj; omega
      subst this
      refine ⟨hok, probeOk_none (hpr rfl), ?_, ib, ob, ⟨R1.hib, R1.hob, R1.part, R1.dst, R1.nd, R1.dd, R1.dj⟩, ⟨A.grid, A.store, A.files, A.alive⟩⟩
      dsimp only
      rw [ho]; simp
  | recv1 r =>
    rw [hph] at hs hp hpr
    cases r with
    | succ r => simp at hs
    | zero =>
      obtain ⟨hl, ib, ob, R1, A⟩ := hp
      obtain ⟨hperm, hi0, ho0⟩ := R1.all_done hnd (by omega)
      simp only [Option.some.injEq] at hs
      subst hs
      refine ⟨hok, probeOk_none (hpr rfl), Nat.zero_le _, fun _ => [], fun _ => [], ⟨?_, ?_, ?_, ?_, ?_, ?_, ?_⟩, ⟨hperm, ?_, ?_, ?_, ?_, A.alive⟩⟩
      · intro i; show s.inbox i = _; rw [R1.hib, hi0]; rfl
      · intro i; show s.outbox i = _; rw [R1.hob, ho0]; rfl
      · simp
      · simp
      · simp
      · simp
      · simp
      · funext t
        show s.grid t = _
        rw [A.grid, fullGrid]
        simp only [hperm.mem_iff]
      · intro t ht _ _; exact A.store t 0 (Or.inl (hperm.mem_iff.2 ht))
      · rintro t (h1 | ⟨i, h1⟩) <;> simp at h1
      · intro t _; exact A.files t
  | send2 k =>
    rw [hph] at hs hp hpr
    obtain ⟨hk, ib, ob, R1, A⟩ := hp
    cases hj : js[k]? with
    | some t =>
      simp only [hj, if_neg (show W ≠ 0 by omega), Option.some.injEq] at hs
      subst hs
      obtain ⟨hlt, _⟩ := List.getElem?_eq_some_iff.1 hj
      refine ⟨hok, probeOk_none (hpr rfl), hlt, _, ob, R1.send hnd hj _ ?_ rfl, ⟨A.perm, A.grid, A.store, A.files, A.none, A.alive⟩⟩
      dsimp only
      rw [A.grid]
    | none =>
      simp only [hj, Option.some.injEq] at hs
      subst hs
      have : k = js.length := by have := List.getElem?_eq_none_iff.1 hj; omega
      subst this
      exact ⟨hok, probeOk_none (hpr rfl), [], ib, ob, by simp, ⟨R1.hib, R1.hob, R1.part, R1.dst, R1.nd, R1.dd, R1.dj⟩,
        ⟨A.perm, A.grid, A.store, A.files, A.none, A.alive⟩⟩
  | recv2 r =>
    rw [hph] at hs hp hpr
    cases r with
    | succ r => simp at hs
    | zero =>
      obtain ⟨done, ib, ob, hl, R1, A⟩ := hp
      obtain ⟨hperm, hi0, ho0⟩ := R1.all_done hnd (by omega)
      simp only [Option.some.injEq] at hs
      subst hs
      refine ⟨hok, probeOk_none (hpr rfl), A.perm, A.grid, ?_, Nat.zero_le _, ?_, ?_, fun i _ => A.alive i⟩
      · intro t
        show s.files t = _
        by_cases ht : t ∈ js
        · rw [if_pos ht]; exact A.files t (Or.inl (hperm.mem_iff.2 ht))
        · rw [if_neg ht]; exact A.none t ht
      · intro i
        show s.inbox i = _
        rw [R1.hib, hi0, if_neg (by omega)]; rfl
      · intro i; show s.outbox i = _; rw [R1.hob, ho0]; rfl
  | kill i =>
    rw [hph] at hs hp hpr
    have A : Half3 J W js s i := hp
    by_cases hi : i < W
    · simp only [if_pos hi, Option.some.injEq] at hs
      subst hs
      refine ⟨hok, probeOk_none (hpr rfl), A.perm, A.grid, A.files, hi, ?_, A.outbox, fun c hc => A.alive c (by omega)⟩
      intro c
      dsimp only
      by_cases e : c = i + 1
      · subst e
        rw [Function.update_self, A.inbox, if_neg (by omega), if_pos (by omega)]; rfl
      · rw [Function.update_of_ne e, A.inbox]
        by_cases h1 : 1 ≤ c ∧ c ≤ i
        · rw [if_pos h1, if_pos (by omega)]
        · rw [if_neg h1, if_neg (by omega)]
    · simp only [if_neg hi, Option.some.injEq] at hs
      subst hs
      have : i = W := by have := A.le; omega
      subst this
      exact ⟨hok, probeOk_none (hpr rfl), A.perm, A.grid, A.files, A.le, A.inbox, A.outbox, A.alive⟩
  | stop => rw [hph] at hs; simp at hs

/-- Appending to a queue does not disturb what the probe saw. -/
theorem probeOk_append {s s' : CommS τ R K P O} (H : ProbeOk J s) {i : Nat} {x : CReply τ R} (h1 : s'.probe = s.probe) (h2 : s'.ph = s.ph)
    (h3 : s'.outbox = Function.update s.outbox i (s.outbox i ++ [x])) : ProbeOk J s' := by
  intro sz hsz
  rw [h1] at hsz
  obtain ⟨hw, c, m, rest, e, hm⟩ := H sz hsz
  refine ⟨by rw [h2]; exact hw, c, m, ?_⟩
  rw [h3]
  by_cases hc : c = i
  · subst hc; rw [Function.update_self, e]; exact ⟨_, rfl, hm⟩
  · rw [Function.update_of_ne hc]; exact ⟨rest, e, hm⟩

/-- What a first-round job does to the state. -/
theorem half1_work {s : CommS τ R K P O} {ib ob : Nat → List τ} {k : Nat} {i : Nat} {t : τ} {rest : List τ}
    (R1 : Rnd W js .first (fun t => .done1 t (J.work1 t)) k s.order s ib ob) (A : Half1 J W js s ob) (hi : ib i = t :: rest) :
    Half1 J W js (commDo J i s (rest.map .first) (.first t)) (Function.update ob i (ob i ++ [t])) := by
  have hti : i = tileDest W js t := R1.dst i t (by rw [hi]; simp)
  refine ⟨A.grid, ?_, A.files, A.alive⟩
  intro u c hu
  show Function.update s.store i (Function.update (s.store i) t (some (J.keep t))) (tileDest W js u) u = _
  by_cases e : u = t
  · subst e; rw [← hti]; simp
  · have hu' : u ∈ s.order ∨ u ∈ ob c := by
      rcases hu with h1 | h1
      · exact Or.inl h1
      · right
        by_cases hc : c = i
        · subst hc; rw [Function.update_self] at h1; simpa [e] using h1
        · rwa [Function.update_of_ne hc] at h1
    have := A.store u c hu'
    by_cases hd : tileDest W js u = i
    · rw [hd, Function.update_self, Function.update_of_ne e, ← hd]; exact this
    · rw [Function.update_of_ne hd]; exact this

/-- What a second-round job does to the state. -/
theorem half2_work {s : CommS τ R K P O} {ib ob : Nat → List τ} {k : Nat} {done : List τ} {i : Nat} {t : τ} {rest : List τ}
    (R1 : Rnd W js (fun t => .second t (J.plan (fullGrid J js) t)) (fun t => .done2 t) k done s ib ob) (A : Half2 J W js s done ob)
    (hi : ib i = t :: rest) :
    s.store i t = some (J.keep t) ∧
    ∀ msgs, Half2 J W js
      { s with
        inbox := Function.update s.inbox i msgs
        store := Function.update s.store i (Function.update (s.store i) t none)
        files := Function.update s.files t (some (J.work2 t (J.keep t) (J.plan (fullGrid J js) t)))
        outbox := Function.update s.outbox i (s.outbox i ++ [.done2 t]) } done (Function.update ob i (ob i ++ [t])) := by
  have hm : t ∈ ob i ++ ib i := by rw [hi]; simp
  have hti : i = tileDest W js t := R1.dst i t hm
  have htj : t ∈ js := R1.mem_js (Or.inr ⟨i, hm⟩)
  have hto : ∀ c, t ∉ ob c := by
    intro c hc
    have h1 : c = i := (R1.dst c t (List.mem_append_left _ hc)).trans hti.symm
    subst h1
    have := R1.nd c
    rw [hi, List.nodup_append] at this
    exact this.2.2 t hc t (by simp) rfl
  have htd : t ∉ done := fun hd => R1.dj t i hd hm
  refine ⟨?_, fun msgs => ⟨A.perm, A.grid, ?_, ?_, ?_, A.alive⟩⟩
  · rw [hti]; exact A.store t htj htd hto
  · intro u hu hud huo
    have hut : u ≠ t := by
      rintro rfl
      exact huo i (by rw [Function.update_self]; simp)
    have huo' : ∀ c, u ∉ ob c := by
      intro c hc
      by_cases e : c = i
      · subst e; exact huo c (by rw [Function.update_self]; simp [hc])
      · exact huo c (by rw [Function.update_of_ne e]; exact hc)
    have := A.store u hu hud huo'
    dsimp only
    by_cases hd : tileDest W js u = i
    · rw [hd, Function.update_self, Function.update_of_ne hut, ← hd]; exact this
    · rw [Function.update_of_ne hd]; exact this
  · intro u hu
    dsimp only
    by_cases e : u = t
    · subst e; rw [Function.update_self]
    · rw [Function.update_of_ne e]
      apply A.files u
      rcases hu with h1 | ⟨c, h1⟩
      · exact Or.inl h1
      · refine Or.inr ⟨c, ?_⟩
        by_cases hc : c = i
        · subst hc; rw [Function.update_self] at h1; simpa [e] using h1
        · rwa [Function.update_of_ne hc] at h1
  · intro u hu
    dsimp only
    rw [Function.update_of_ne (by rintro rfl; exact hu htj)]
    exact A.none u hu

/-- The message at the head of a queue, in terms of tiles. -/
theorem head_of_map {A B : Type*} {f : A → B} {l : List A} {L : List B} (h1 : L = l.map f) {m : B} {rest : List B} (h2 : L = m :: rest) :
    ∃ t r, l = t :: r ∧ m = f t ∧ rest = r.map f := by
  rw [h1] at h2
  cases l with
  | nil => simp at h2
  | cons t r =>
    rw [List.map_cons, List.cons.injEq] at h2
    exact ⟨t, r, rfl, h2.1.symm, h2.2.symm⟩

theorem CommInv.work {s s' : CommS τ R K P O} (H : CommInv J W js s) {i : Nat} (hs : commWork J W i s = some s') : CommInv J W js s' := by
  unfold commWork at hs
  split at hs
  · cases hs
  · rename_i hi
    cases hq : s.inbox i with
    | nil => rw [hq] at hs; simp at hs
    | cons m rest =>
      rw [hq] at hs
      simp only [Option.some.injEq] at hs
      subst hs
      have hp := H.ph
      cases hph : s.ph with
      | send1 k =>
        rw [hph] at hp
        obtain ⟨hk, ho, ib, ob, R1, A⟩ := hp
        obtain ⟨t, r, e1, rfl, rfl⟩ := head_of_map (R1.hib i) hq
        refine ⟨H.ok, probeOk_append H.probe rfl rfl rfl, ?_⟩
        show PhaseInv J W js _ s.ph
        rw [hph]
        exact ⟨hk, ho, _, _, R1.work e1 _ rfl rfl, half1_work R1 A e1⟩
      | recv1 n =>
        rw [hph] at hp
        obtain ⟨hk, ib, ob, R1, A⟩ := hp
        obtain ⟨t, r, e1, rfl, rfl⟩ := head_of_map (R1.hib i) hq
        refine ⟨H.ok, probeOk_append H.probe rfl rfl rfl, ?_⟩
        show PhaseInv J W js _ s.ph
        rw [hph]
        exact ⟨hk, _, _, R1.work e1 _ rfl rfl, half1_work R1 A e1⟩
      | send2 k =>
        rw [hph] at hp
        obtain ⟨hk, ib, ob, R1, A⟩ := hp
        obtain ⟨t, r, e1, rfl, rfl⟩ := head_of_map (R1.hib i) hq
        obtain ⟨e2, A2⟩ := half2_work R1 A e1
        simp only [commDo, e2]
        refine ⟨H.ok, probeOk_append H.probe rfl rfl rfl, ?_⟩
        show PhaseInv J W js _ s.ph
        rw [hph]
        have A3 := A2 []
        exact ⟨hk, _, _, R1.work e1 _ rfl rfl, ⟨A3.perm, A3.grid, A3.store, A3.files, A3.none, A3.alive⟩⟩
      | recv2 n =>
        rw [hph] at hp
        obtain ⟨done, ib, ob, hk, R1, A⟩ := hp
        obtain ⟨t, r, e1, rfl, rfl⟩ := head_of_map (R1.hib i) hq
        obtain ⟨e2, A2⟩ := half2_work R1 A e1
        simp only [commDo, e2]
        refine ⟨H.ok, probeOk_append H.probe rfl rfl rfl, ?_⟩
        show PhaseInv J W js _ s.ph
        rw [hph]
        have A3 := A2 []
        exact ⟨done, _, _, hk, R1.work e1 _ rfl rfl, ⟨A3.perm, A3.grid, A3.store, A3.files, A3.none, A3.alive⟩⟩
      | kill n =>
        rw [hph] at hp
        have A : Half3 J W js s n := hp
        have hin : 1 ≤ i ∧ i ≤ n := by
          by_contra hc
          rw [A.inbox, if_neg hc] at hq; cases hq
        rw [A.inbox, if_pos hin, List.cons.injEq] at hq
        obtain ⟨rfl, rfl⟩ := hq
        have hpn := probe_none H.probe (by rw [hph]; rfl)
        refine ⟨H.ok, probeOk_none hpn, ?_⟩
        show PhaseInv J W js _ s.ph
        rw [hph]
        refine ⟨A.perm, A.grid, A.files, A.le, A.inbox, A.outbox, fun c hc => ?_⟩
        show Function.update s.alive i false c = true
        rw [Function.update_of_ne (by rintro rfl; exact hc hin)]
        exact A.alive c hc
      | stop =>
        rw [hph] at hp
        have A : Half3 J W js s W := hp
        have hin : 1 ≤ i ∧ i ≤ W := by
          by_contra hc
          rw [A.inbox, if_neg hc] at hq; cases hq
        rw [A.inbox, if_pos hin, List.cons.injEq] at hq
        obtain ⟨rfl, rfl⟩ := hq
        have hpn := probe_none H.probe (by rw [hph]; rfl)
        refine ⟨H.ok, probeOk_none hpn, ?_⟩
        show PhaseInv J W js _ s.ph
        rw [hph]
        refine ⟨A.perm, A.grid, A.files, A.le, A.inbox, A.outbox, fun c hc => ?_⟩
        show Function.update s.alive i false c = true
        rw [Function.update_of_ne (by rintro rfl; exact hc hin)]
        exact A.alive c hc

theorem PhaseInv.congr {s s' : CommS τ R K P O} {ph : CPhase} (h1 : PhaseInv J W js s ph) (e1 : s'.inbox = s.inbox) (e2 : s'.outbox = s.outbox)
    (e3 : s'.store = s.store) (e4 : s'.grid = s.grid) (e5 : s'.files = s.files) (e6 : s'.alive = s.alive) (e7 : s'.order = s.order) :
    PhaseInv J W js s' ph := by
  obtain ⟨a, b, c, d, e, f, g, i, j, k⟩ := s
  obtain ⟨a', b', c', d', e', f', g', i', j', k'⟩ := s'
  dsimp only at e1 e2 e3 e4 e5 e6 e7
  subst e1 e2 e3 e4 e5 e6 e7
  cases ph with
  | send1 k => obtain ⟨p, q, ib, ob, R1, A⟩ := h1; exact ⟨p, q, ib, ob, ⟨R1.1, R1.2, R1.3, R1.4, R1.5, R1.6, R1.7⟩, ⟨A.1, A.2, A.3, A.4⟩⟩
  | recv1 k => obtain ⟨p, ib, ob, R1, A⟩ := h1; exact ⟨p, ib, ob, ⟨R1.1, R1.2, R1.3, R1.4, R1.5, R1.6, R1.7⟩, ⟨A.1, A.2, A.3, A.4⟩⟩
  | send2 k => obtain ⟨p, ib, ob, R1, A⟩ := h1; exact ⟨p, ib, ob, ⟨R1.1, R1.2, R1.3, R1.4, R1.5, R1.6, R1.7⟩, ⟨A.1, A.2, A.3, A.4, A.5, A.6⟩⟩
  | recv2 k =>
    obtain ⟨dn, ib, ob, p, R1, A⟩ := h1
    exact ⟨dn, ib, ob, p, ⟨R1.1, R1.2, R1.3, R1.4, R1.5, R1.6, R1.7⟩, ⟨A.1, A.2, A.3, A.4, A.5, A.6⟩⟩
  | kill n => have A : Half3 J W js _ n := h1; exact ⟨A.1, A.2, A.3, A.4, A.5, A.6, A.7⟩
  | stop => have A : Half3 J W js _ W := h1; exact ⟨A.1, A.2, A.3, A.4, A.5, A.6, A.7⟩

theorem CommInv.doProbe {s s' : CommS τ R K P O} (H : CommInv J W js s) {i : Nat} (hs : commProbe J i s = some s') : CommInv J W js s' := by
  unfold commProbe at hs
  split at hs
  · rename_i hc
    cases hq : s.outbox i with
    | nil => rw [hq] at hs; simp at hs
    | cons m rest =>
      rw [hq] at hs
      simp only [Option.some.injEq] at hs
      subst hs
      refine ⟨H.ok, ?_, H.ph.congr rfl rfl rfl rfl rfl rfl rfl⟩
      intro sz hsz
      refine ⟨hc.1, i, m, rest, hq, ?_⟩
      exact (Option.some.inj hsz).symm
  · cases hs

theorem tileDest_one (hW : W = 1) (t : τ) : tileDest W js t = 1 := by
  subst hW; simp [tileDest, commDest, Nat.mod_one]

theorem CommInv.recv (hsz : OneSize J W js) {s s' : CommS τ R K P O} (H : CommInv J W js s) {j : Nat} (hs : commRecv J j s = some s') :
    CommInv J W js s' := by
  unfold commRecv at hs
  cases hpr : s.probe with
  | none => rw [hpr] at hs; cases hs
  | some sz =>
    rw [hpr] at hs
    cases hq : s.outbox j with
    | nil => rw [hq] at hs; simp at hs
    | cons m rest =>
      rw [hq] at hs
      dsimp only at hs
      obtain ⟨hw, i, m0, rest0, hq0, hm0⟩ := H.probe sz hpr
      have hp := H.ph
      cases hph : s.ph with
      | recv1 r =>
        rw [hph] at hp hw
        cases r with
        | zero => cases hw
        | succ r =>
          obtain ⟨hl, ib, ob, R1, A⟩ := hp
          obtain ⟨t, q, e1, rfl, rfl⟩ := head_of_map (R1.hob j) hq
          obtain ⟨u, q', e2, rfl, rfl⟩ := head_of_map (R1.hob i) hq0
          have hmt : t ∈ ob j ++ ib j := by rw [e1]; simp
          have hmu : u ∈ ob i ++ ib i := by rw [e2]; simp
          have hsame : J.size1 t = J.size1 u := by
            rcases hsz with h1 | h1
            · have h2 := R1.dst j t hmt
              have h3 := R1.dst i u hmu
              rw [tileDest_one h1] at h2 h3
              rw [h2] at e1; rw [h3, e1] at e2
              rw [(List.cons.inj e2).1]
            · exact h1 t (R1.mem_js (Or.inr ⟨j, hmt⟩)) u (R1.mem_js (Or.inr ⟨i, hmu⟩))
          rw [if_neg (by rw [hm0]; simp only [replySize]; omega), hph] at hs
          simp only [commStore, Option.some.injEq] at hs
          subst hs
          refine ⟨H.ok, probeOk_none rfl, ?_, ib, _, R1.recv e1 _ rfl rfl, ⟨?_, ?_, A.files, A.alive⟩⟩
          · dsimp only; rw [List.length_append]; simp only [List.length_singleton]; omega
          · intro v
            show Function.update s.grid t (some (J.work1 t)) v = _
            by_cases e : v = t
            · subst e; rw [Function.update_self, if_pos (by simp)]
            · rw [Function.update_of_ne e, A.grid]
              simp [e]
          · intro v c hv
            rcases hv with h1 | h1
            · dsimp only at h1
              rw [List.mem_append, List.mem_singleton] at h1
              rcases h1 with h1 | h1
              · exact A.store v 0 (Or.inl h1)
              · subst h1; exact A.store v j (Or.inr (by rw [e1]; simp))
            · by_cases hc : c = j
              · subst hc; rw [Function.update_self] at h1; exact A.store v c (Or.inr (by rw [e1]; simp [h1]))
              · rw [Function.update_of_ne hc] at h1; exact A.store v c (Or.inr h1)
      | recv2 r =>
        rw [hph] at hp hw
        cases r with
        | zero => cases hw
        | succ r =>
          obtain ⟨dn, ib, ob, hl, R1, A⟩ := hp
          obtain ⟨t, q, e1, rfl, rfl⟩ := head_of_map (R1.hob j) hq
          obtain ⟨u, q', e2, rfl, rfl⟩ := head_of_map (R1.hob i) hq0
          rw [if_neg (by rw [hm0]; simp [replySize]), hph] at hs
          simp only [commStore, Option.some.injEq] at hs
          subst hs
          have hmem : ∀ v, (v ∈ dn ++ [t] ∨ ∃ c, v ∈ Function.update ob j q c) ↔ (v ∈ dn ∨ ∃ c, v ∈ ob c) := by
            intro v
            constructor
            · rintro (h1 | ⟨c, h1⟩)
              · rw [List.mem_append, List.mem_singleton] at h1
                rcases h1 with h1 | h1
                · exact Or.inl h1
                · exact Or.inr ⟨j, by rw [h1, e1]; simp⟩
              · right
                by_cases hc : c = j
                · subst hc; rw [Function.update_self] at h1; exact ⟨c, by rw [e1]; simp [h1]⟩
                · rw [Function.update_of_ne hc] at h1; exact ⟨c, h1⟩
            · rintro (h1 | ⟨c, h1⟩)
              · left; simp [h1]
              · by_cases hc : c = j
                · subst hc
                  rw [e1, List.mem_cons] at h1
                  rcases h1 with h1 | h1
                  · left; simp [h1]
                  · right; exact ⟨c, by rw [Function.update_self]; exact h1⟩
                · right; exact ⟨c, by rw [Function.update_of_ne hc]; exact h1⟩
          refine ⟨H.ok, probeOk_none rfl, dn ++ [t], ib, _, ?_, R1.recv e1 _ rfl rfl, ⟨A.perm, A.grid, ?_, ?_, A.none, A.alive⟩⟩
          · rw [List.length_append]; simp only [List.length_singleton]; omega
          · intro v hv h1 h2
            have h3 : ¬(v ∈ dn ∨ ∃ c, v ∈ ob c) := by
              rw [← hmem]
              rintro (h4 | ⟨c, h4⟩)
              · exact h1 h4
              · exact h2 c h4
            exact A.store v hv (fun h4 => h3 (Or.inl h4)) (fun c h4 => h3 (Or.inr ⟨c, h4⟩))
          · intro v hv; exact A.files v ((hmem v).1 hv)
      | send1 k => rw [hph] at hw; cases hw
      | send2 k => rw [hph] at hw; cases hw
      | kill k => rw [hph] at hw; cases hw
      | stop => rw [hph] at hw; cases hw

theorem CommInv.step (hnd : js.Nodup) (hW : 1 ≤ W) (hsz : OneSize J W js) {s s' : CommS τ R K P O} (H : CommInv J W js s) {e : CEv}
    (hs : commStep J W js s e = some s') : CommInv J W js s' := by
  unfold commStep at hs
  rw [if_neg (by rw [H.ok]; simp)] at hs
  cases e with
  | prod => exact H.prod hnd hW hs
  | work i => exact H.work hs
  | probe i => exact H.doProbe hs
  | recv j => exact H.recv hsz hs

theorem CommInv.run (hnd : js.Nodup) (hW : 1 ≤ W) (hsz : OneSize J W js) : ∀ (es : List CEv) {s s' : CommS τ R K P O}, CommInv J W js s →
    commRun J W js es s = some s' → CommInv J W js s'
  | [], s, s', H, h1 => by rw [← Option.some.inj h1]; exact H
  | e :: es, s, s', H, h1 => by
    unfold commRun at h1
    cases h2 : commStep J W js s e with
    | none => rw [h2] at h1; cases h1
    | some s1 => rw [h2] at h1; exact CommInv.run hnd hW hsz es (H.step hnd hW hsz h2) h1

/-- Waiting for a round's replies, something can happen. -/
theorem Rnd.live {mk : τ → CMsg τ P} {rp : τ → CReply τ R} {done : List τ} {s : CommS τ R K P O} {ib ob : Nat → List τ}
    (hnd : js.Nodup) (hW : 1 ≤ W) (hok : s.ok = true) (hpr : ProbeOk J s) (hw : waiting s.ph = true) (hal : ∀ i, s.alive i = true)
    (H : Rnd W js mk rp js.length done s ib ob) (hl : done.length < js.length) : ∃ e s', commStep J W js s e = some s' := by
  cases hp : s.probe with
  | some sz =>
    obtain ⟨_, i, m, rest, hq, _⟩ := hpr sz hp
    refine ⟨.recv i, ?_⟩
    simp only [commStep, if_neg (show ¬ s.ok = false by rw [hok]; simp), commRecv, hp, hq]
    split
    · exact ⟨_, rfl⟩
    · exact ⟨_, rfl⟩
  | none =>
    obtain ⟨i, hi1, hi2, hne⟩ := H.missing hl hnd
    cases ho : s.outbox i with
    | cons m rest =>
      refine ⟨.probe i, ?_⟩
      simp only [commStep, if_neg (show ¬ s.ok = false by rw [hok]; simp), commProbe, hp, hw, ho, and_self, if_true]
      exact ⟨_, rfl⟩
    | nil =>
      have ho' : ob i = [] := by have := H.hob i; rw [ho] at this; exact List.map_eq_nil_iff.1 this.symm
      have hi' : s.inbox i ≠ [] := by
        rw [H.hib, ne_eq, List.map_eq_nil_iff]
        exact hne.resolve_left (fun h1 => h1 ho')
      cases hq : s.inbox i with
      | nil => exact absurd hq hi'
      | cons m rest =>
        refine ⟨.work i, ?_⟩
        have : ¬(i = 0 ∨ W < i ∨ s.alive i = false) := by
          have := hi2 (by omega)
          rw [hal]
          simp only [Bool.true_eq_false, or_false, not_or]
          omega
        simp only [commStep, if_neg (show ¬ s.ok = false by rw [hok]; simp), commWork, if_neg this, hq]
        exact ⟨_, rfl⟩

/-- No deadlock: unless everything has ended, something can happen. -/
theorem CommInv.live (hnd : js.Nodup) (hW : 1 ≤ W) {s : CommS τ R K P O} (H : CommInv J W js s) :
    (∃ e s', commStep J W js s e = some s') ∨ (s.ph = .stop ∧ ∀ i, 1 ≤ i → i ≤ W → s.alive i = false) := by
  have hprod : (∃ s', commProd J W js s = some s') → ∃ e s', commStep J W js s e = some s' := by
    rintro ⟨s', h1⟩
    refine ⟨.prod, s', ?_⟩
    simp only [commStep, if_neg (show ¬ s.ok = false by rw [H.ok]; simp)]
    exact h1
  have hp := H.ph
  cases hph : s.ph with
  | send1 k =>
    left
    apply hprod
    unfold commProd
    rw [hph]
    cases hj : js[k]? with
    | none => simp only [hj]; exact ⟨_, rfl⟩
    | some t => simp only [hj, if_neg (show W ≠ 0 by omega)]; exact ⟨_, rfl⟩
  | send2 k =>
    left
    apply hprod
    unfold commProd
    rw [hph]
    cases hj : js[k]? with
    | none => simp only [hj]; exact ⟨_, rfl⟩
    | some t => simp only [hj, if_neg (show W ≠ 0 by omega)]; exact ⟨_, rfl⟩
  | recv1 r =>
    left
    cases r with
    | zero => apply hprod; unfold commProd; rw [hph]; exact ⟨_, rfl⟩
    | succ r =>
      rw [hph] at hp
      obtain ⟨hl, ib, ob, R1, A⟩ := hp
      exact R1.live hnd hW H.ok H.probe (by rw [hph]; rfl) A.alive (by omega)
  | recv2 r =>
    left
    cases r with
    | zero => apply hprod; unfold commProd; rw [hph]; exact ⟨_, rfl⟩
    | succ r =>
      rw [hph] at hp
      obtain ⟨dn, ib, ob, hl, R1, A⟩ := hp
      exact R1.live hnd hW H.ok H.probe (by rw [hph]; rfl) A.alive (by omega)
  | kill i =>
    left
    apply hprod
    unfold commProd
    rw [hph]
    dsimp only
    split
    · exact ⟨_, rfl⟩
    · exact ⟨_, rfl⟩
  | stop =>
    rw [hph] at hp
    have A : Half3 J W js s W := hp
    by_cases hall : ∀ i, 1 ≤ i → i ≤ W → s.alive i = false
    · exact Or.inr ⟨rfl, hall⟩
    · left
      push Not at hall
      obtain ⟨i, h1, h2, h3⟩ := hall
      refine ⟨.work i, ?_⟩
      have h4 : ¬(i = 0 ∨ W < i ∨ s.alive i = false) := by
        rintro (h4 | h4 | h4)
        · omega
        · omega
        · exact h3 h4
      have h5 : s.inbox i = [.kill] := by rw [A.inbox, if_pos ⟨h1, h2⟩]
      simp only [commStep, if_neg (show ¬ s.ok = false by rw [H.ok]; simp), commWork, if_neg h4, h5]
      exact ⟨_, rfl⟩

/-! How long it can last. -/

/-- Steps the producer has left. -/
def phaseRank (W n : Nat) : CPhase → Nat
  | .send1 k => 4 * (n - k) + 4 * n + 4 * W + 10
  | .recv1 _ => 4 * n + 4 * W + 9
  | .send2 k => 4 * (n - k) + 4 * W + 8
  | .recv2 _ => 4 * W + 7
  | .kill i => 4 * (W - i) + 1
  | .stop => 0

/-- Work waiting at one consumer. -/
def consRank (s : CommS τ R K P O) (i : Nat) : Nat :=
  3 * (s.inbox i).length + 2 * (s.outbox i).length + (s.alive i).toNat

/-- A bound for the number of events to come. -/
def commRank (W n : Nat) (s : CommS τ R K P O) : Nat :=
  phaseRank W n s.ph + (if s.probe = none then 1 else 0) + ∑ i ∈ Finset.range (W + 1), consRank s i

theorem sum_change {n i : Nat} (hi : i < n) {f g : Nat → Nat} (hne : ∀ c, c ≠ i → g c = f c) :
    ∑ c ∈ Finset.range n, g c + f i = ∑ c ∈ Finset.range n, f c + g i := by
  have hm : i ∈ Finset.range n := Finset.mem_range.2 hi
  rw [← Finset.add_sum_erase _ _ hm, ← Finset.add_sum_erase (Finset.range n) f hm]
  have : ∑ c ∈ (Finset.range n).erase i, g c = ∑ c ∈ (Finset.range n).erase i, f c :=
    Finset.sum_congr rfl (fun c hc => hne c (Finset.ne_of_mem_erase hc))
  rw [this]; omega

theorem sum_same {n : Nat} {f g : Nat → Nat} (hne : ∀ c, g c = f c) : ∑ c ∈ Finset.range n, g c = ∑ c ∈ Finset.range n, f c :=
  Finset.sum_congr rfl (fun c _ => hne c)

theorem commDest_le (hW : 1 ≤ W) (k : Nat) : commDest W k < W + 1 := by
  have := Nat.mod_lt k (show W > 0 by omega)
  unfold commDest; omega

omit [DecidableEq τ] in
/-- Adding a message to the queue of consumer `i`. -/
theorem consRank_push {s s' : CommS τ R K P O} {i n : Nat} {m : CMsg τ P} (hi : i < n)
    (h1 : s'.inbox = Function.update s.inbox i (s.inbox i ++ [m])) (h2 : s'.outbox = s.outbox) (h3 : s'.alive = s.alive) :
    ∑ c ∈ Finset.range n, consRank s' c = ∑ c ∈ Finset.range n, consRank s c + 3 := by
  have := sum_change (f := consRank s) (g := consRank s') hi (fun c hc => by
    simp only [consRank]; rw [h1, h2, h3, Function.update_of_ne hc])
  have h4 : consRank s' i = consRank s i + 3 := by
    simp only [consRank]; rw [h1, h2, h3, Function.update_self, List.length_append]; simp only [List.length_singleton]; omega
  omega

omit [DecidableEq τ] in
theorem consRank_eq {s s' : CommS τ R K P O} {n : Nat} (h1 : s'.inbox = s.inbox) (h2 : s'.outbox = s.outbox) (h3 : s'.alive = s.alive) :
    ∑ c ∈ Finset.range n, consRank s' c = ∑ c ∈ Finset.range n, consRank s c :=
  sum_same (fun c => by simp only [consRank]; rw [h1, h2, h3])

theorem rank_prod (hW : 1 ≤ W) {s s' : CommS τ R K P O} (hs : commProd J W js s = some s') :
    commRank W js.length s' < commRank W js.length s := by
  unfold commProd at hs
  cases hph : s.ph with
  | send1 k =>
    rw [hph] at hs
    cases hj : js[k]? with
    | some t =>
      simp only [hj, if_neg (show W ≠ 0 by omega), Option.some.injEq] at hs
      obtain ⟨hlt, _⟩ := List.getElem?_eq_some_iff.1 hj
      subst hs
      have := consRank_push (s := s) (s' := { s with ph := CPhase.send1 (k + 1), inbox := Function.update s.inbox (commDest W k) (s.inbox (commDest W k) ++ [.first t]) })
        (commDest_le hW k) rfl rfl rfl
      simp only [commRank, hph, phaseRank] at *
      omega
    | none =>
      simp only [hj, Option.some.injEq] at hs
      subst hs
      have := consRank_eq (n := W + 1) (s := s) (s' := { s with ph := CPhase.recv1 js.length }) rfl rfl rfl
      simp only [commRank, hph, phaseRank] at *
      omega
  | recv1 r =>
    rw [hph] at hs
    cases r with
    | succ r => simp at hs
    | zero =>
      simp only [Option.some.injEq] at hs
      subst hs
      have := consRank_eq (n := W + 1) (s := s) (s' := { s with ph := CPhase.send2 0 }) rfl rfl rfl
      simp only [commRank, hph, phaseRank] at *
      omega
  | send2 k =>
    rw [hph] at hs
    cases hj : js[k]? with
    | some t =>
      simp only [hj, if_neg (show W ≠ 0 by omega), Option.some.injEq] at hs
      obtain ⟨hlt, _⟩ := List.getElem?_eq_some_iff.1 hj
      subst hs
      have := consRank_push (s := s) (s' := { s with ph := CPhase.send2 (k + 1), inbox := Function.update s.inbox (commDest W k) (s.inbox (commDest W k) ++ [.second t (J.plan s.grid t)]) })
        (commDest_le hW k) rfl rfl rfl
      simp only [commRank, hph, phaseRank] at *
      omega
    | none =>
      simp only [hj, Option.some.injEq] at hs
      subst hs
      have := consRank_eq (n := W + 1) (s := s) (s' := { s with ph := CPhase.recv2 js.length }) rfl rfl rfl
      simp only [commRank, hph, phaseRank] at *
      omega
  | recv2 r =>
    rw [hph] at hs
    cases r with
    | succ r => simp at hs
    | zero =>
      simp only [Option.some.injEq] at hs
      subst hs
      have := consRank_eq (n := W + 1) (s := s) (s' := { s with ph := CPhase.kill 0 }) rfl rfl rfl
      simp only [commRank, hph, phaseRank] at *
      omega
  | kill i =>
    rw [hph] at hs
    by_cases hi : i < W
    · simp only [if_pos hi, Option.some.injEq] at hs
      subst hs
      have := consRank_push (s := s) (s' := { s with ph := CPhase.kill (i + 1), inbox := Function.update s.inbox (i + 1) (s.inbox (i + 1) ++ [.kill]) })
        (show i + 1 < W + 1 by omega) rfl rfl rfl
      simp only [commRank, hph, phaseRank] at *
      omega
    · simp only [if_neg hi, Option.some.injEq] at hs
      subst hs
      have := consRank_eq (n := W + 1) (s := s) (s' := { s with ph := CPhase.stop }) rfl rfl rfl
      simp only [commRank, hph, phaseRank] at *
      omega
  | stop => rw [hph] at hs; simp at hs

theorem rank_work {s s' : CommS τ R K P O} {i : Nat} (hok : s'.ok = true) (hs : commWork J W i s = some s') (n : Nat) :
    commRank W n s' < commRank W n s := by
  unfold commWork at hs
  split at hs
  · cases hs
  · rename_i hi
    push Not at hi
    obtain ⟨hi0, hiW, hal⟩ := hi
    have hlt : i < W + 1 := by omega
    cases hq : s.inbox i with
    | nil => rw [hq] at hs; simp at hs
    | cons m rest =>
      rw [hq] at hs
      simp only [Option.some.injEq] at hs
      subst hs
      have main : ∀ s' : CommS τ R K P O, s'.ph = s.ph → s'.probe = s.probe → (∀ c, c ≠ i → consRank s' c = consRank s c) →
          consRank s' i < consRank s i → commRank W n s' < commRank W n s := by
        intro s' e1 e2 e3 e4
        have := sum_change hlt e3
        simp only [commRank, e1, e2]
        omega
      cases m with
      | first t =>
        refine main _ rfl rfl (fun c hc => ?_) ?_
        · simp only [consRank, commDo]; rw [Function.update_of_ne hc, Function.update_of_ne hc]
        · simp only [consRank, commDo]; rw [Function.update_self, Function.update_self, hq, List.length_append]
          simp only [List.length_cons, List.length_nil]; omega
      | second t p =>
        cases hst : s.store i t with
        | none => simp [commDo, hst] at hok
        | some k =>
          simp only [commDo, hst]
          refine main _ rfl rfl (fun c hc => ?_) ?_
          · simp only [consRank]; rw [Function.update_of_ne hc, Function.update_of_ne hc]
          · simp only [consRank]; rw [Function.update_self, Function.update_self, hq, List.length_append]
            simp only [List.length_cons, List.length_nil]; omega
      | kill =>
        refine main _ rfl rfl (fun c hc => ?_) ?_
        · simp only [consRank, commDo]; rw [Function.update_of_ne hc]
        · have : s.alive i = true := by simpa using hal
          simp [consRank, commDo, this]

theorem rank_step (hW : 1 ≤ W) {s s' : CommS τ R K P O} (H : CommInv J W js s) (H' : CommInv J W js s') {e : CEv}
    (hs : commStep J W js s e = some s') : commRank W js.length s' < commRank W js.length s := by
  unfold commStep at hs
  rw [if_neg (by rw [H.ok]; simp)] at hs
  cases e with
  | prod => exact rank_prod hW hs
  | work i => exact rank_work H'.ok hs _
  | probe i =>
    simp only [commProbe] at hs
    split at hs
    · rename_i hc
      cases hq : s.outbox i with
      | nil => rw [hq] at hs; simp at hs
      | cons m rest =>
        rw [hq] at hs
        simp only [Option.some.injEq] at hs
        subst hs
        have := consRank_eq (n := W + 1) (s := s) (s' := { s with probe := some (replySize J m) }) rfl rfl rfl
        simp only [commRank, hc.2] at *
        simp at *
        omega
    · cases hs
  | recv j =>
    simp only [commRecv] at hs
    cases hpr : s.probe with
    | none => rw [hpr] at hs; cases hs
    | some sz =>
      rw [hpr] at hs
      cases hq : s.outbox j with
      | nil => rw [hq] at hs; simp at hs
      | cons m rest =>
        rw [hq] at hs
        dsimp only at hs
        have hj : j < W + 1 := by
          have hp := H.ph
          have hw := (H.probe sz hpr).1
          have hm : ∀ {mk : τ → CMsg τ P} {rp : τ → CReply τ R} {done : List τ} {ib ob : Nat → List τ},
              Rnd W js mk rp js.length done s ib ob → j < W + 1 := by
            intro mk rp done ib ob R1
            obtain ⟨t, q, e1, -, -⟩ := head_of_map (R1.hob j) hq
            rw [R1.dst j t (by rw [e1]; simp)]
            exact commDest_le hW _
          cases hph : s.ph with
          | recv1 r => rw [hph] at hp; obtain ⟨_, ib, ob, R1, _⟩ := hp; exact hm R1
          | recv2 r => rw [hph] at hp; obtain ⟨dn, ib, ob, _, R1, _⟩ := hp; exact hm R1
          | send1 k => rw [hph] at hw; cases hw
          | send2 k => rw [hph] at hw; cases hw
          | kill k => rw [hph] at hw; cases hw
          | stop => rw [hph] at hw; cases hw
        split at hs
        · simp only [Option.some.injEq] at hs
          subst hs
          have := H'.ok
          cases this
        · simp only [Option.some.injEq] at hs
          have key : ∀ s2 : CommS τ R K P O, s2.probe = none → s2.inbox = s.inbox → s2.alive = s.alive →
              s2.outbox = Function.update s.outbox j rest → phaseRank W js.length s2.ph ≤ phaseRank W js.length s.ph →
              commRank W js.length s2 < commRank W js.length s := by
            intro s2 e1 e2 e3 e4 e5
            have h5 := sum_change (f := consRank s) (g := consRank s2) hj (fun c hc => by
              simp only [consRank]; rw [e2, e3, e4, Function.update_of_ne hc])
            have h6 : consRank s2 j + 2 = consRank s j := by
              simp only [consRank]; rw [e2, e3, e4, Function.update_self, hq]; simp only [List.length_cons]; omega
            simp only [commRank, e1, hpr]
            simp only [if_true]
            have : (if some sz = (none : Option Nat) then 1 else 0) = 0 := by simp
            omega
          have hok' := H'.ok
          subst hs
          cases hph : s.ph with
          | recv1 r =>
            cases r with
            | zero => rw [hph] at hok'; cases m <;> simp [commStore] at hok'
            | succ r =>
              cases m with
              | done1 t x => exact key _ rfl rfl rfl rfl (by rw [hph]; simp [commStore, phaseRank])
              | done2 t => rw [hph] at hok'; simp [commStore] at hok'
          | recv2 r =>
            cases r with
            | zero => rw [hph] at hok'; cases m <;> simp [commStore] at hok'
            | succ r =>
              cases m with
              | done2 t => exact key _ rfl rfl rfl rfl (by rw [hph]; simp [commStore, phaseRank])
              | done1 t x => rw [hph] at hok'; simp [commStore] at hok'
          | send1 k => rw [hph] at hok'; cases m <;> simp [commStore] at hok'
          | send2 k => rw [hph] at hok'; cases m <;> simp [commStore] at hok'
          | kill k => rw [hph] at hok'; cases m <;> simp [commStore] at hok'
          | stop => rw [hph] at hok'; cases m <;> simp [commStore] at hok'

theorem rank_run (hnd : js.Nodup) (hW : 1 ≤ W) (hsz : OneSize J W js) : ∀ (es : List CEv) {s s' : CommS τ R K P O}, CommInv J W js s →
    commRun J W js es s = some s' → es.length + commRank W js.length s' ≤ commRank W js.length s
  | [], s, s', _, h1 => by rw [← Option.some.inj h1]; simp
  | e :: es, s, s', H, h1 => by
    unfold commRun at h1
    cases h2 : commStep J W js s e with
    | none => rw [h2] at h1; cases h1
    | some s1 =>
      rw [h2] at h1
      have H1 := H.step hnd hW hsz h2
      have h3 := rank_step hW H H1 h2
      have h4 := rank_run hnd hW hsz es H1 h1
      rw [List.length_cons]
      omega

omit [DecidableEq τ] in
theorem rank_start (n : Nat) : commRank W n (CommS.start : CommS τ R K P O) = 8 * n + 5 * W + 12 := by
  have : ∀ i, consRank (CommS.start : CommS τ R K P O) i = 1 := by intro i; simp [consRank, CommS.start]
  have h1 : ∑ i ∈ Finset.range (W + 1), consRank (CommS.start : CommS τ R K P O) i = W + 1 := by
    rw [Finset.sum_congr rfl (fun i _ => this i)]; simp
  simp only [commRank, h1]
  simp only [CommS.start, phaseRank]
  simp
  omega

end

end RichDEM
