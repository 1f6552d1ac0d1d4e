import Verif.DS.Managed

/-!
C33: ownership in `ManagedVector` (and therefore `Array2D`, which keeps its cells in one).
-/

namespace RichDEM

open MVState
variable {T : Type}

/-- A client action. -/
inductive MVOp (T : Type) where
  | callerAlloc (l : List T)
  | construct (i n : Nat) (v : T)
  | wrap (i a n : Nat)
  | copyCtor (dst src : Nat)
  | moveCtor (dst src : Nat)
  | destroy (i : Nat)
  | copyAssign (dst src : Nat)
  | moveAssign (dst src : Nat)
  | resize (i n : Nat) (junk : T)
  | write (i k : Nat) (v : T)

def MVOp.run (s : MVState T) : MVOp T → Except MVErr (MVState T)
  | .callerAlloc l => .ok (s.callerAlloc l)
  | .construct i n v => .ok (s.construct i n v)
  | .wrap i a n => .ok (s.wrap i a n)
  | .copyCtor d r => s.copyCtor d r
  | .moveCtor d r => s.moveCtor d r
  | .destroy i => s.destroy i
  | .copyAssign d r => s.copyAssign d r
  | .moveAssign d r => s.moveAssign d r
  | .resize i n j => s.resize i n j
  | .write i k v => s.write i k v

/-- The action makes sense in C++: constructed names are new, used names exist, wrapped memory
is the caller's and long enough. -/
def MVOp.legal (s : MVState T) : MVOp T → Prop
  | .callerAlloc _ => True
  | .construct i _ _ => s.objs i = none
  | .wrap i a n => s.objs i = none ∧ a < s.next ∧ s.ext a = true ∧
      ∀ l, s.heap a = some l → n ≤ l.length
  | .copyCtor d r => s.objs d = none ∧ s.objs r ≠ none
  | .moveCtor d r => s.objs d = none ∧ s.objs r ≠ none
  | .destroy i => s.objs i ≠ none
  | .copyAssign d r => s.objs d ≠ none ∧ s.objs r ≠ none
  | .moveAssign d r => s.objs d ≠ none ∧ s.objs r ≠ none
  | .resize i _ _ => s.objs i ≠ none
  | .write i k _ => ∃ m a, s.objs i = some m ∧ m.data = some a ∧ k < m.size

/-- The restriction under which ownership is sound: no assignment to a vector that currently
wraps caller memory. -/
def MVOp.noAssignToWrapper (s : MVState T) : MVOp T → Prop
  | .copyAssign d _ => ∀ m, s.objs d = some m → m.owned = true
  | .moveAssign d _ => ∀ m, s.objs d = some m → m.owned = true
  | _ => True

/-- States reachable by legal actions under that restriction; a `resize` that throws leaves
the state unchanged. -/
inductive MVReach : MVState T → Prop
  | start : MVReach init
  | step (s s' : MVState T) (o : MVOp T) : MVReach s → o.legal s → o.noAssignToWrapper s → o.run s = .ok s' → MVReach s'

theorem read_length {s : MVState T} (I : Inv s) {i : Nat} {m : MV} (h : s.objs i = some m) :
    (s.read m).length = m.size := by
  unfold MVState.read
  cases hd : m.data with
  | none => simp [(I.empty i m h hd).1]
  | some a =>
    obtain ⟨_, _, l, r3, r4⟩ := I.refs i m a h hd
    simp [r3]; omega

/-- One action keeps the invariant and makes no memory error. -/
theorem mv_step {s : MVState T} (I : Inv s) (o : MVOp T) (hl : o.legal s)
    (hn : o.noAssignToWrapper s) :
    (∃ s', o.run s = .ok s' ∧ Inv s') ∨
      (∃ i n j m, o = .resize i n j ∧ s.objs i = some m ∧ m.owned = false ∧
        o.run s = .error .throws) := by
  cases o with
  | callerAlloc l => exact Or.inl ⟨_, rfl, I.callerAlloc l⟩
  | construct i n v =>
    refine Or.inl ⟨_, rfl, I.allocTo i n _ (by simp) ?_⟩
    intro m a h; rw [hl] at h; cases h
  | wrap i a n =>
    obtain ⟨h1, h2, h3, h4⟩ := hl
    exact Or.inl ⟨_, rfl, I.wrap i a n h2 h3 h4 h1⟩
  | copyCtor d r =>
    obtain ⟨h1, h2⟩ := hl
    obtain ⟨m, hm⟩ := Option.ne_none_iff_exists'.1 h2
    refine Or.inl ⟨(s.alloc (s.read m)).setObj d (some ⟨some s.next, true, m.size⟩),
      by simp only [MVOp.run, MVState.copyCtor, hm], I.allocTo d m.size _ ?_ ?_⟩
    · rw [read_length I hm]
    · intro m a h; rw [h1] at h; cases h
  | moveCtor d r =>
    obtain ⟨h1, h2⟩ := hl
    obtain ⟨m, hm⟩ := Option.ne_none_iff_exists'.1 h2
    have hne : d ≠ r := by rintro rfl; exact h2 h1
    refine Or.inl ⟨(s.setObj r (some ⟨none, true, 0⟩)).setObj d (some m),
      by simp only [MVOp.run, MVState.moveCtor, hm], ?_⟩
    have := I.moveTo d r m hne hm (by intro x a h; rw [h1] at h; cases h)
    have e : (s.setObj r (some ⟨none, true, 0⟩)).setObj d (some m) =
        (s.setObj d (some m)).setObj r (some ⟨none, true, 0⟩) := by
      unfold MVState.setObj
      simp only [MVState.mk.injEq, true_and]
      funext j
      unfold upd
      by_cases h1 : j = d <;> by_cases h2 : j = r <;> simp [h1, h2]
      · omega
      · intro h; omega
      · intro h; omega
    rw [e]; exact this
  | destroy i =>
    obtain ⟨m, hm⟩ := Option.ne_none_iff_exists'.1 hl
    left
    simp only [MVOp.run, MVState.destroy, hm]
    by_cases ho : m.owned = true
    · obtain ⟨s1, e1, I1, _⟩ := I.release i m hm ho none (Or.inl rfl)
      rw [ho, if_pos rfl, e1]
      exact ⟨_, rfl, I1⟩
    · rw [if_neg ho]
      refine ⟨s.setObj i none, rfl, ?_⟩
      -- an unowned object refers to caller memory only
      have hext : ∀ a, m.data = some a → s.ext a = true := by
        intro a ha
        have := (I.refs i m a hm ha).2.1
        simp only [Bool.not_eq_true] at ho
        rw [ho] at this; simpa using this.symm
      unfold MVState.setObj
      refine ⟨I.fresh, ?_, ?_, I.extlive, ?_, ?_⟩
      · intro j mj b h1 h2
        simp only at h1
        by_cases hj : j = i
        · subst hj; rw [upd_same] at h1; cases h1
        · rw [upd_ne _ _ _ hj] at h1; exact I.refs j mj b h1 h2
      · intro j mj h1 h2
        simp only at h1
        by_cases hj : j = i
        · subst hj; rw [upd_same] at h1; cases h1
        · rw [upd_ne _ _ _ hj] at h1; exact I.empty j mj h1 h2
      · intro j k mj mk b h1 h2 h3 h4 h5
        simp only at h1 h2
        by_cases hj : j = i
        · subst hj; rw [upd_same] at h1; cases h1
        · by_cases hk : k = i
          · subst hk; rw [upd_same] at h2; cases h2
          · rw [upd_ne _ _ _ hj] at h1; rw [upd_ne _ _ _ hk] at h2
            exact I.uniq j k mj mk b h1 h2 h3 h4 h5
      · intro b h1 h2
        obtain ⟨j, mj, e1, e2⟩ := I.noleak b h1 h2
        have hj : j ≠ i := by
          rintro rfl
          rw [hm] at e1; cases e1
          have := hext b e2; simp only at h2; rw [this] at h2; cases h2
        exact ⟨j, mj, by simp only; rw [upd_ne _ _ _ hj]; exact e1, e2⟩
  | copyAssign d r =>
    obtain ⟨h1, h2⟩ := hl
    obtain ⟨md, hmd⟩ := Option.ne_none_iff_exists'.1 h1
    obtain ⟨m, hm⟩ := Option.ne_none_iff_exists'.1 h2
    left
    have ho := hn md hmd
    obtain ⟨s1, e1, I1, hnx, hex, hob, _, _⟩ :=
      I.release d md hmd ho (some ⟨none, true, 0⟩) (Or.inr rfl)
    -- allocating first and deleting afterwards commute
    have hcomm : (s.alloc (s.read m)).freeOpt md.data = .ok (s1.alloc (s.read m)) := by
      cases hd : md.data with
      | none =>
        rw [hd] at e1
        simp only [MVState.freeOpt, Except.ok.injEq] at e1 ⊢; rw [e1]
      | some a =>
        obtain ⟨r1, r2, l, r3, _⟩ := I.refs d md a hmd hd
        have hea : s.ext a = false := by rw [ho] at r2; simpa using r2
        rw [hd] at e1
        simp only [MVState.freeOpt, MVState.free, r3, hea, Bool.false_eq_true, if_false,
          Except.ok.injEq] at e1
        have ha1 : (s.alloc (s.read m)).heap a = some l := by
          simp only [MVState.alloc]; rw [upd_ne _ _ _ (show a ≠ s.next by omega), r3]
        have ha2 : (s.alloc (s.read m)).ext a = false := by
          simp only [MVState.alloc]; rw [upd_ne _ _ _ (show a ≠ s.next by omega), hea]
        simp only [MVState.freeOpt, MVState.free, ha1, ha2, Bool.false_eq_true, if_false,
          Except.ok.injEq]
        rw [← e1]
        simp only [MVState.alloc, MVState.mk.injEq, and_true]
        funext b
        unfold upd
        by_cases hb : b = a <;> by_cases hb' : b = s.next <;> simp [hb, hb']
        · omega
        · intro; omega
        · intro h; omega
    refine ⟨(s1.alloc (s.read m)).setObj d (some ⟨some s.next, true, m.size⟩), ?_, ?_⟩
    · simp only [MVOp.run, MVState.copyAssign, hmd, hm, hcomm]
    · have I2 := I1.allocTo d m.size (s.read m) (by rw [read_length I hm]) (by
        intro x a h h'
        simp only [MVState.setObj, upd_same, Option.some.injEq] at h
        subst h; cases h')
      have e : (((s1.setObj d (some ⟨none, true, 0⟩)).alloc (s.read m)).setObj d
          (some ⟨some (s1.setObj d (some ⟨none, true, 0⟩)).next, true, m.size⟩)) =
          (s1.alloc (s.read m)).setObj d (some ⟨some s.next, true, m.size⟩) := by
        simp only [MVState.setObj, MVState.alloc, hnx, MVState.mk.injEq, true_and]
        funext j; unfold upd; by_cases h : j = d <;> simp [h]
      rw [e] at I2; exact I2
  | moveAssign d r =>
    obtain ⟨h1, h2⟩ := hl
    obtain ⟨md, hmd⟩ := Option.ne_none_iff_exists'.1 h1
    obtain ⟨m, hm⟩ := Option.ne_none_iff_exists'.1 h2
    left
    have ho := hn md hmd
    by_cases hdr : d = r
    · subst hdr
      refine ⟨s.setObj d (some ⟨md.data, true, 0⟩), ?_, ?_⟩
      · simp only [MVOp.run, MVState.moveAssign, hmd, if_true]
      · unfold MVState.setObj
        have look : ∀ j mj, upd s.objs d (some ⟨md.data, true, 0⟩) j = some mj →
            ∃ mj', s.objs j = some mj' ∧ mj'.data = mj.data ∧ mj'.owned = mj.owned ∧
              mj.size ≤ mj'.size := by
          intro j mj h
          by_cases hj : j = d
          · subst hj; rw [upd_same] at h; cases h; exact ⟨md, hmd, rfl, ho, Nat.zero_le _⟩
          · rw [upd_ne _ _ _ hj] at h; exact ⟨mj, h, rfl, rfl, Nat.le_refl _⟩
        refine ⟨I.fresh, ?_, ?_, I.extlive, ?_, ?_⟩
        · intro j mj b h1 h2
          obtain ⟨mj', g1, g2, g3, g4⟩ := look j mj h1
          obtain ⟨r1, r2, l, r3, r4⟩ := I.refs j mj' b g1 (g2 ▸ h2)
          exact ⟨r1, g3 ▸ r2, l, r3, by omega⟩
        · intro j mj h1 h2
          obtain ⟨mj', g1, g2, g3, g4⟩ := look j mj h1
          obtain ⟨r1, r2⟩ := I.empty j mj' g1 (g2 ▸ h2)
          exact ⟨by omega, g3 ▸ r2⟩
        · intro j k mj mk b h1 h2 h3 h4 h5
          obtain ⟨mj', g1, g2, _⟩ := look j mj h1
          obtain ⟨mk', k1, k2, _⟩ := look k mk h2
          exact I.uniq j k mj' mk' b g1 k1 (g2 ▸ h3) (k2 ▸ h4) h5
        · intro b h1 h2
          obtain ⟨j, mj, e1, e2⟩ := I.noleak b h1 h2
          by_cases hj : j = d
          · subst hj; rw [hmd] at e1; cases e1
            exact ⟨j, _, upd_same _ _ _, e2⟩
          · exact ⟨j, mj, by simp only; rw [upd_ne _ _ _ hj]; exact e1, e2⟩
    · obtain ⟨s1, e1, I1, hnx, hex, hob, _, _⟩ :=
        I.release d md hmd ho (some ⟨none, true, 0⟩) (Or.inr rfl)
      refine ⟨(s1.setObj d (some m)).setObj r (some ⟨none, true, 0⟩), ?_, ?_⟩
      · simp only [MVOp.run, MVState.moveAssign, hmd, hm, hdr, if_false, e1]
      · have I2 := I1.moveTo d r m hdr (by
            simp only [MVState.setObj]; rw [upd_ne _ _ _ (Ne.symm hdr), hob]; exact hm) (by
            intro x a h h'
            simp only [MVState.setObj, upd_same, Option.some.injEq] at h
            subst h; cases h')
        have e : ((s1.setObj d (some ⟨none, true, 0⟩)).setObj d (some m)) = s1.setObj d (some m) := by
          simp only [MVState.setObj, MVState.mk.injEq, true_and]
          funext j; unfold upd; by_cases h : j = d <;> simp [h]
        rw [e] at I2; exact I2
  | resize i n j =>
    obtain ⟨m, hm⟩ := Option.ne_none_iff_exists'.1 hl
    by_cases h1 : m.size = n
    · exact Or.inl ⟨s, by simp [MVOp.run, MVState.resize, hm, h1], I⟩
    · by_cases h2 : m.owned = false
      · right
        exact ⟨i, n, j, m, rfl, hm, h2, by simp [MVOp.run, MVState.resize, hm, h1, h2]⟩
      · left
        have ho : m.owned = true := by simpa using h2
        obtain ⟨s1, e1, I1, hnx, hex, hob, _, _⟩ :=
          I.release i m hm ho (some ⟨none, true, 0⟩) (Or.inr rfl)
        refine ⟨(s1.alloc (List.replicate n j)).setObj i (some ⟨some s1.next, true, n⟩), ?_, ?_⟩
        · simp [MVOp.run, MVState.resize, hm, h1, ho, e1]
        · have I2 := I1.allocTo i n (List.replicate n j) (by simp) (by
            intro x a h h'
            simp only [MVState.setObj, upd_same, Option.some.injEq] at h
            subst h; cases h')
          have e : (((s1.setObj i (some ⟨none, true, 0⟩)).alloc (List.replicate n j)).setObj i
              (some ⟨some (s1.setObj i (some ⟨none, true, 0⟩)).next, true, n⟩)) =
              (s1.alloc (List.replicate n j)).setObj i (some ⟨some s1.next, true, n⟩) := by
            simp only [MVState.setObj, MVState.alloc, MVState.mk.injEq, true_and]
            funext j; unfold upd; by_cases h : j = i <;> simp [h]
          rw [e] at I2; exact I2
  | write i k v =>
    obtain ⟨⟨dt, ow, n⟩, a, h1, h2, h3⟩ := hl
    simp only at h2 h3
    subst h2
    left
    exact ⟨{ s with heap := upd s.heap a ((s.heap a).map (·.set k v)) },
      by simp only [MVOp.run, MVState.write, h1, h3, if_true], I.write k v⟩

theorem MVReach.inv {s : MVState T} (R : MVReach s) : Inv s := by
  induction R with
  | start => exact inv_init
  | step s s' o _ hl hn he ih =>
    rcases mv_step ih o hl hn with ⟨t, e, I⟩ | ⟨_, _, _, _, _, _, _, e⟩
    · rw [e] at he; cases he; exact I
    · rw [e] at he; cases he

/-- **C33, partial.** In any history in which no assignment targets a vector that wraps caller
memory, no action ever deletes caller memory or deletes twice: every legal action succeeds,
except that `resize` of wrapped memory throws.  Missing: assignments to wrapping vectors, for
which the claim is false (`C33_assignment_frees_caller_memory`). -/
theorem C33_no_memory_error_partial (s : MVState T) (R : MVReach s) (o : MVOp T)
    (hl : o.legal s) (hn : o.noAssignToWrapper s) :
    (∃ s', o.run s = .ok s') ∨
      (∃ i n j m, o = .resize i n j ∧ s.objs i = some m ∧ m.owned = false ∧
        o.run s = .error .throws) := by
  rcases mv_step R.inv o hl hn with ⟨t, e, _⟩ | h
  · exact Or.inl ⟨t, e⟩
  · exact Or.inr h

/-- **C33, partial.** In such a history the caller's blocks are always alive, and every block
the library allocated is alive exactly as long as some vector holds it, and is held by exactly
one. -/
theorem C33_ownership_partial (s : MVState T) (R : MVReach s) :
    (∀ a, a < s.next → s.ext a = true → s.heap a ≠ none) ∧
    (∀ a, a < s.next → s.ext a = false →
      (s.heap a ≠ none ↔ ∃ i m, s.objs i = some m ∧ m.data = some a)) ∧
    (∀ i j m m' a, s.objs i = some m → s.objs j = some m' → m.data = some a → m'.data = some a →
      s.ext a = false → i = j) ∧
    ((∀ i, s.objs i = none) → ∀ a, s.ext a = false → s.heap a = none) := by
  have I := R.inv
  refine ⟨I.extlive, ?_, I.uniq, ?_⟩
  · intro a ha he
    constructor
    · intro h; exact I.noleak a h he
    · rintro ⟨i, m, h1, h2⟩
      obtain ⟨_, _, l, h, _⟩ := I.refs i m a h1 h2
      rw [h]; simp
  · intro hno a he
    by_contra h
    obtain ⟨i, m, h1, _⟩ := I.noleak a h he
    rw [hno i] at h1; cases h1

/-- **C33.** A copy shows the same elements, owns its memory, and is independent: writing to
any other vector does not change what it shows. -/
theorem C33_copy_independent (s : MVState T) (R : MVReach s) (dst src : Nat)
    (hd : s.objs dst = none) (m : MV) (hm : s.objs src = some m) :
    ∃ s' md, s.copyCtor dst src = .ok s' ∧ s'.objs dst = some md ∧ md.owned = true ∧
      s'.read md = s.read m ∧ s'.objs src = some m ∧ s'.read m = s.read m ∧
      (∀ i k v s'', i ≠ dst → s'.write i k v = .ok s'' → s''.read md = s'.read md) ∧
      (∀ k v s'', s'.write dst k v = .ok s'' → s''.read m = s.read m) := by
  have I := R.inv
  have hne : src ≠ dst := by rintro rfl; rw [hd] at hm; cases hm
  have hnx : ∀ j mj b, s.objs j = some mj → mj.data = some b → b ≠ s.next := by
    intro j mj b h1 h2; have := (I.refs j mj b h1 h2).1; omega
  have hread : ∀ (h : Nat → Option (List T)), (∀ b, b ≠ s.next → h b = s.heap b) →
      ∀ e n o, MVState.read ⟨h, e, n, o⟩ m = s.read m := by
    intro h hh e n o
    unfold MVState.read
    cases hdm : m.data with
    | none => rfl
    | some b => simp only; rw [hh b (hnx src m b hm hdm)]
  refine ⟨(s.alloc (s.read m)).setObj dst (some ⟨some s.next, true, m.size⟩),
    ⟨some s.next, true, m.size⟩, by simp only [MVState.copyCtor, hm], ?_, rfl, ?_, ?_, ?_, ?_, ?_⟩
  · simp [MVState.setObj, upd_same]
  · have := read_length I hm
    generalize hr : s.read m = r at this ⊢
    simp only [MVState.read, MVState.setObj, MVState.alloc, upd_same, Option.getD_some]
    apply List.take_of_length_le
    omega
  · simp [MVState.setObj, MVState.alloc, upd_ne _ _ _ hne, hm]
  · exact hread _ (fun b hb => upd_ne _ _ _ hb) _ _ _
  · intro i k v s'' hi hw
    simp only [MVState.write, MVState.setObj, MVState.alloc, upd_ne _ _ _ hi] at hw
    split at hw
    · rename_i a ow n hoi
      split at hw
      · cases hw
        have : s.next ≠ a := fun h => hnx i _ a hoi rfl h.symm
        simp only [MVState.read, upd_ne _ _ _ this, MVState.setObj]
        rfl
      · cases hw
    · cases hw
  · intro k v s'' hw
    simp only [MVState.write, MVState.setObj, MVState.alloc, upd_same] at hw
    split at hw
    · cases hw
      apply hread
      intro b hb
      rw [upd_ne _ _ _ hb, upd_ne _ _ _ hb]
    · cases hw

/-- Run a list of actions. -/
def runMV (s : MVState T) : List (MVOp T) → Except MVErr (MVState T)
  | [] => .ok s
  | o :: os => match o.run s with
    | .error e => .error e
    | .ok s => runMV s os

/-- **C33 is false**: assigning to a vector that wraps caller memory deletes that memory. -/
theorem C33_assignment_frees_caller_memory :
    (match runMV (T := Int) init [.callerAlloc [1, 2, 3], .wrap 0 0 3, .construct 1 2 7,
      .copyAssign 0 1] with | .error e => some e | .ok _ => none) = some .freedCallerMemory := by
  decide +kernel

/-- **C33 is false**: self-move of a wrapping vector marks it as owner, and its destructor
deletes the caller's memory. -/
theorem C33_self_move_frees_caller_memory :
    (match runMV (T := Int) init [.callerAlloc [1, 2, 3], .wrap 0 0 3, .moveAssign 0 0,
      .destroy 0] with | .error e => some e | .ok _ => none) = some .freedCallerMemory := by
  decide +kernel

/-- Non-vacuity: wrapping, copying, moving, resizing and destroying without error; nothing of
the library's remains and the caller's block is intact. -/
example :
    (match runMV (T := Int) init [.callerAlloc [1, 2, 3], .wrap 0 0 3, .copyCtor 1 0,
      .moveCtor 2 1, .construct 1000 2 7, .copyAssign 1000 2, .moveAssign 1 1000, .resize 1 5 0,
      .write 0 1 9, .destroy 0, .destroy 1, .destroy 2, .destroy 1000] with
     | .error _ => none | .ok s => some (s.heap 0, (List.range 6).map (fun a => (s.heap (a+1)).isSome)))
    = some (some [1, 9, 3], [false, false, false, false, false, false]) := by decide +kernel

end RichDEM
