import Verif.IO.Layout
import Mathlib.Tactic.Ring

/-!
C39 (layout files), C40 (base names).
-/

namespace RichDEM

open Layout

/-! ### C40 -/

/-- **C40.** The base name of `dir/name.ext` is `name`, of `dir/name` (no period anywhere) is
`name`, of `name.ext` is `name`: whenever the file's own name has a period, or the whole path
has none. -/
theorem C40_base_name_partial (dir name ext : Str) (hs : '/' ∉ name ++ '.' :: ext)
    (hp : '.' ∉ ext) :
    getBaseName (dir ++ '/' :: (name ++ '.' :: ext)) = name ∧
    getBaseName (name ++ '.' :: ext) = name ∧
    ('.' ∉ dir ++ '/' :: name → getBaseName (dir ++ '/' :: name) = name) ∧
    ('.' ∉ name → getBaseName name = name) := by
  have hsn : '/' ∉ name := fun h => hs (by simp [h])
  refine ⟨?_, ?_, ?_, ?_⟩
  · have e1 := findLast_append dir _ hs
    have e2 : findLast '.' (dir ++ '/' :: (name ++ '.' :: ext)) = some (dir ++ '/' :: name).length := by
      have := findLast_append (dir ++ '/' :: name) ext hp
      rwa [List.append_assoc, List.cons_append] at this
    simp only [getBaseName, e1, e2]
    have : dir ++ '/' :: (name ++ '.' :: ext) = (dir ++ '/' :: name) ++ '.' :: ext := by simp
    rw [this, List.take_left' rfl, show dir ++ '/' :: name = (dir ++ ['/']) ++ name by simp,
      List.drop_left' (by simp)]
  · have e2 := findLast_append name ext hp
    have e1 := findLast_none.2 hs
    simp only [getBaseName, e1, e2]
    rw [List.take_left' rfl]
  · intro h
    have e2 := findLast_none.2 h
    have e1 := findLast_append dir _ hsn
    simp only [getBaseName, e1, e2]
    rw [show dir ++ '/' :: name = (dir ++ ['/']) ++ name by simp, List.drop_left' (by simp)]
  · intro h
    simp only [getBaseName, findLast_none.2 h, findLast_none.2 hsn]

/-- **C40 is false** whenever a directory has a period and the file name has none: the result
is empty, for every such path. -/
theorem C40_period_in_directory (dir name : Str) (hd : '.' ∈ dir) (hs : '/' ∉ name)
    (hp : '.' ∉ name) : getBaseName (dir ++ '/' :: name) = [] := by
  rcases split_last '.' dir with h | ⟨a, b, rfl, hb⟩
  · exact absurd hd h
  · have e1 := findLast_append (a ++ '.' :: b) _ hs
    have e2 : findLast '.' (a ++ '.' :: b ++ '/' :: name) = some a.length := by
      have := findLast_append (c := '.') a (b ++ '/' :: name) (by simp [hb, hp])
      rwa [show a ++ '.' :: (b ++ '/' :: name) = a ++ '.' :: b ++ '/' :: name by simp] at this
    simp only [getBaseName, e1, e2]
    rw [List.drop_eq_nil_iff, List.length_take, List.length_append, List.length_append]
    simp only [List.length_cons]
    omega

/-- Concretely: the base name of `a.b/tile` is empty. -/
theorem C40_witness : getBaseName "a.b/tile".toList = [] := by decide

example : getBaseName "path/to/file.ext".toList = "file".toList := by decide

/-! ### C39 -/

/-- An entry that survives the file format: no comma, no newline, no space at either end. -/
def CleanName (s : Str) : Prop :=
  ',' ∉ s ∧ '\n' ∉ s ∧ s.head? ≠ some ' ' ∧ s.getLast? ≠ some ' '

theorem trimStr_clean {s : Str} (h1 : s.head? ≠ some ' ') (h2 : s.getLast? ≠ some ' ') :
    trimStr s = s := by
  have d : ∀ t : Str, t.head? ≠ some ' ' → t.dropWhile (· = ' ') = t := by
    intro t ht
    cases t with
    | nil => rfl
    | cons c cs =>
      have : ¬ c = ' ' := by simpa using ht
      simp [this]
  unfold trimStr
  rw [d s h1, d s.reverse (by rw [List.head?_reverse]; exact h2), List.reverse_reverse]

theorem parse_write (g : List (List Str)) (hg : g ≠ []) (h0 : ∀ r ∈ g, r ≠ [])
    (hc : ∀ r ∈ g, ∀ a ∈ r, CleanName (stripPath a)) :
    parse (writeGrid g) = g.map fun r => dropBlank (r.map stripPath) := by
  rw [writeGrid_eq g hg h0]
  unfold parse
  have : ∀ g : List (List Str), (∀ r ∈ g, ∀ a ∈ r, CleanName (stripPath a)) →
      getlines '\n' (g.flatMap fun r => joinC (r.map stripPath) ++ ['\n']) =
        g.map fun r => joinC (r.map stripPath) := by
    intro g
    induction g with
    | nil => intro _; rfl
    | cons r g ih =>
      intro hc
      rw [List.flatMap_cons, List.append_assoc, List.singleton_append, getlines_piece,
        ih (fun x hx => hc x (by simp [hx])), List.map_cons]
      apply joinC_newline
      intro a ha
      simp only [List.mem_map] at ha
      obtain ⟨b, hb, rfl⟩ := ha
      exact (hc r (by simp) b hb).2.1
  rw [this g hc, List.map_map]
  apply List.map_congr_left
  intro r hr
  have hcl : ∀ a ∈ r.map stripPath, CleanName a := by
    intro a ha
    simp only [List.mem_map] at ha
    obtain ⟨b, hb, rfl⟩ := ha
    exact hc r hr b hb
  simp only [Function.comp_apply]
  rw [getlines_joinC _ (fun a ha => (hcl a ha).1)]
  conv_rhs => rw [← List.map_id (dropBlank (r.map stripPath))]
  apply List.map_congr_left
  intro a ha
  have := hcl a (dropBlank_mem ha)
  exact trimStr_clean this.2.2.1 this.2.2.2

theorem maxRow_ge (rows : List (List Str)) : ∀ m, m ≤ rows.foldl (fun m r => max m r.length) m ∧
    ∀ r ∈ rows, r.length ≤ rows.foldl (fun m r => max m r.length) m := by
  induction rows with
  | nil => intro m; simp
  | cons a rows ih =>
    intro m
    obtain ⟨h1, h2⟩ := ih (max m a.length)
    simp only [List.foldl_cons, List.mem_cons]
    refine ⟨by omega, ?_⟩
    rintro r (rfl | hr)
    · omega
    · exact h2 r hr

theorem maxRow_le (rows : List (List Str)) (M : Nat) (h : ∀ r ∈ rows, r.length ≤ M) :
    ∀ m, m ≤ M → rows.foldl (fun m r => max m r.length) m ≤ M := by
  induction rows with
  | nil => intro m hm; exact hm
  | cons a rows ih =>
    intro m hm
    rw [List.foldl_cons]
    exact ih (fun r hr => h r (by simp [hr])) _ (by have := h a (by simp); omega)

/-- **C39 (round trip).** For every rectangular grid of entries (with or without directories)
whose names survive the format and at least one of whose rows does not end in a blank: reading
the written file gives back the same grid of names. -/
theorem C39_round_trip_partial (g : List (List Str)) (w : Nat) (hw : 0 < w)
    (hrect : ∀ r ∈ g, r.length = w)
    (hc : ∀ r ∈ g, ∀ a ∈ r, CleanName (stripPath a))
    (hlast : ∃ r ∈ g, ∃ a, r.getLast? = some a ∧ stripPath a ≠ []) :
    readGrid (writeGrid g) = some (g.map (·.map stripPath)) := by
  obtain ⟨r0, hr0, a0, ha0, hne0⟩ := hlast
  have hg : g ≠ [] := List.ne_nil_of_mem hr0
  have h0 : ∀ r ∈ g, r ≠ [] := by
    intro r hr e; have := hrect r hr; rw [e] at this; simp at this; omega
  have hp := parse_write g hg h0 hc
  -- the row after parsing
  have hrow : ∀ r ∈ g, dropBlank (r.map stripPath) = r.map stripPath ∨
      (dropBlank (r.map stripPath) ++ [[]] = r.map stripPath ∧
        (dropBlank (r.map stripPath)).length = w - 1) := by
    intro r hr
    have hl := hrect r hr
    obtain ⟨q, a, rfl⟩ : ∃ q a, r = q ++ [a] := ⟨r.dropLast, r.getLast (h0 r hr),
      (List.dropLast_append_getLast (h0 r hr)).symm⟩
    rw [List.map_append, List.map_cons, List.map_nil]
    by_cases ha : stripPath a = []
    · right
      rw [ha, dropBlank_blank]
      simp at hl
      exact ⟨rfl, by rw [List.length_map]; omega⟩
    · left; exact dropBlank_full _ _ ha
  have hfull : dropBlank (r0.map stripPath) = r0.map stripPath := by
    obtain ⟨q, a, rfl⟩ : ∃ q a, r0 = q ++ [a] := ⟨r0.dropLast, r0.getLast (h0 r0 hr0),
      (List.dropLast_append_getLast (h0 r0 hr0)).symm⟩
    rw [List.getLast?_append] at ha0
    simp at ha0
    subst ha0
    rw [List.map_append, List.map_cons, List.map_nil]
    exact dropBlank_full _ _ hne0
  have hmax : maxRow (parse (writeGrid g)) = w := by
    rw [hp]
    apply Nat.le_antisymm
    · apply maxRow_le
      · intro r hr
        simp only [List.mem_map] at hr
        obtain ⟨r', hr', rfl⟩ := hr
        rcases hrow r' hr' with h | ⟨_, h⟩
        · rw [h, List.length_map, hrect r' hr']
        · omega
      · omega
    · have := (maxRow_ge (g.map fun r => dropBlank (r.map stripPath)) 0).2
        (dropBlank (r0.map stripPath)) (by simp only [List.mem_map]; exact ⟨r0, hr0, rfl⟩)
      rw [hfull, List.length_map, hrect r0 hr0] at this
      exact this
  have hfix : ∀ g' : List (List Str), (∀ r ∈ g', r ∈ g) →
      fixRows w (g'.map fun r => dropBlank (r.map stripPath)) = some (g'.map (·.map stripPath)) := by
    intro g'
    induction g' with
    | nil => intro _; rfl
    | cons r g' ih =>
      intro hsub
      have hr := hsub r (by simp)
      have := ih (fun x hx => hsub x (by simp [hx]))
      rw [List.map_cons, fixRows, this]
      have hl : (r.map stripPath).length = w := by rw [List.length_map, hrect r hr]
      rcases hrow r hr with h | ⟨h, h'⟩
      · rw [h, if_neg (by omega), if_neg (by omega)]; rfl
      · rw [if_pos ⟨hw, h'⟩, h]; rfl
  have hfg := hfix g (fun x hx => hx)
  rw [← hp, ← hmax] at hfg
  unfold readGrid
  split
  · rename_i e
    rw [hp, List.map_eq_nil_iff] at e
    exact absurd e hg
  · exact hfg

/-- **C39 is false when every row ends in a null tile**: the whole last column disappears. -/
theorem C39_blank_column_lost (g : List (List Str)) (hg : g ≠ []) (w : Nat) (hw : 1 < w)
    (hrect : ∀ r ∈ g, r.length = w)
    (hc : ∀ r ∈ g, ∀ a ∈ r, CleanName (stripPath a))
    (hblank : ∀ r ∈ g, ∃ q, r.map stripPath = q ++ [[]]) :
    readGrid (writeGrid g) = some (g.map fun r => (r.map stripPath).dropLast) := by
  have h0 : ∀ r ∈ g, r ≠ [] := by
    intro r hr e; have := hrect r hr; rw [e] at this; simp at this; omega
  have hp := parse_write g hg h0 hc
  have hrow : ∀ r ∈ g, dropBlank (r.map stripPath) = (r.map stripPath).dropLast ∧
      ((r.map stripPath).dropLast).length = w - 1 := by
    intro r hr
    obtain ⟨q, hq⟩ := hblank r hr
    have hl : (r.map stripPath).length = w := by rw [List.length_map, hrect r hr]
    rw [hq] at hl ⊢
    rw [dropBlank_blank, List.dropLast_concat]
    simp at hl
    exact ⟨rfl, by omega⟩
  have hp' : parse (writeGrid g) = g.map fun r => (r.map stripPath).dropLast := by
    rw [hp]; exact List.map_congr_left fun r hr => (hrow r hr).1
  have hmax : maxRow (parse (writeGrid g)) = w - 1 := by
    rw [hp']
    apply Nat.le_antisymm
    · apply maxRow_le
      · intro r hr
        simp only [List.mem_map] at hr
        obtain ⟨r', hr', rfl⟩ := hr
        rw [(hrow r' hr').2]
      · omega
    · obtain ⟨r0, hr0⟩ := List.exists_mem_of_ne_nil g hg
      have := (maxRow_ge (g.map fun r => (r.map stripPath).dropLast) 0).2
        ((r0.map stripPath).dropLast) (by simp only [List.mem_map]; exact ⟨r0, hr0, rfl⟩)
      rw [(hrow r0 hr0).2] at this
      exact this
  have hfix : ∀ g' : List (List Str), (∀ r ∈ g', r ∈ g) →
      fixRows (w - 1) (g'.map fun r => (r.map stripPath).dropLast) =
        some (g'.map fun r => (r.map stripPath).dropLast) := by
    intro g'
    induction g' with
    | nil => intro _; rfl
    | cons r g' ih =>
      intro hsub
      have hl := (hrow r (hsub r (by simp))).2
      rw [List.map_cons, fixRows, ih (fun x hx => hsub x (by simp [hx])),
        if_neg (by omega), if_neg (by omega)]
      rfl
  have hfg := hfix g (fun x hx => hx)
  rw [← hp', ← hmax] at hfg
  unfold readGrid
  split
  · rename_i e
    rw [hp', List.map_eq_nil_iff] at e
    exact absurd e hg
  · rw [hfg, hp']

/-- The name at column `x` of row `y`. -/
def nameAt (g : List (List Str)) (x y : Nat) : Str := ((g[y]?).bind (·[x]?)).getD []

/-- **C39 (iteration).** For every non-empty rectangular grid: repeatedly calling `next()`
visits the entries in row-major order with their coordinates, reports a new row exactly at
column 0, a null tile exactly at blank names, and then stops. -/
theorem C39_iteration (g : List (List Str)) (w : Nat) (hw : 0 < w) (hg : g ≠ [])
    (hrect : ∀ r ∈ g, r.length = w) :
    drain (w * g.length + 1) (Reader.start g) =
      some ((List.range (w * g.length)).map fun k =>
        ⟨(k % w : Nat), (k / w : Nat), decide (k % w = 0), nameAt g (k % w) (k / w),
          decide (nameAt g (k % w) (k / w) = [])⟩) := by
  obtain ⟨row0, gr, rfl⟩ : ∃ a b, g = a :: b := by
    cases g with
    | nil => exact absurd rfl hg
    | cons a b => exact ⟨a, b, rfl⟩
  generalize hgg : row0 :: gr = g at *
  have hrow0 : row0.length = w := hrect row0 (by rw [← hgg]; simp)
  have hcell : ∀ x y, x < w → y < g.length →
      (g[y]?).bind (·[x]?) = some (nameAt g x y) := by
    intro x y hx hy
    have hm : g[y] ∈ g := List.getElem_mem hy
    have hl := hrect _ hm
    unfold nameAt
    rw [List.getElem?_eq_getElem hy, Option.bind_some, List.getElem?_eq_getElem (by omega)]
    rfl
  let ent : Nat → Entry := fun k =>
    ⟨(k % w : Nat), (k / w : Nat), decide (k % w = 0), nameAt g (k % w) (k / w),
      decide (nameAt g (k % w) (k / w) = [])⟩
  -- one step: from "k entries consumed"
  have step : ∀ k (r : Reader), r.fgrid = g →
      (k = 0 ∧ r.gridx = -2 ∧ r.gridy = -1 ∨
        ∃ j, k = j + 1 ∧ r.gridx = (j % w : Nat) ∧ r.gridy = (j / w : Nat)) →
      (k < w * g.length → ∃ r', r.next = .more r' ∧ r'.fgrid = g ∧
        r'.gridx = (k % w : Nat) ∧ r'.gridy = (k / w : Nat) ∧ r'.entry = ent k) ∧
      (k = w * g.length → r.next = .done) := by
    intro k r hf hpos
    -- the new position
    have hnew : ∃ nr : Bool,
        (decide (r.gridx + 1 = -1 ∨ r.gridx + 1 = (row0.length : Int)) = nr) ∧
        nr = decide (k % w = 0) ∧
        (if r.gridx + 1 = -1 ∨ r.gridx + 1 = (row0.length : Int) then r.gridy + 1 else r.gridy)
          = (k / w : Nat) ∧
        (if r.gridx + 1 = -1 ∨ r.gridx + 1 = (row0.length : Int) then 0 else r.gridx + 1)
          = (k % w : Nat) := by
      rcases hpos with ⟨rfl, hx, hy⟩ | ⟨j, rfl, hx, hy⟩
      · refine ⟨true, ?_, ?_, ?_, ?_⟩
        · simp [hx]
        · simp
        · simp [hx, hy]
        · simp [hx]
      · have hjm : j % w < w := Nat.mod_lt _ hw
        by_cases hwrap : j % w + 1 = w
        · have e1 : (j + 1) % w = 0 := by
            rw [Nat.add_mod]
            rcases Nat.lt_or_ge 1 w with h | h
            · rw [Nat.mod_eq_of_lt h, hwrap, Nat.mod_self]
            · have : w = 1 := by omega
              subst this; omega
          have e2 : (j + 1) / w = j / w + 1 := by
            have hd := Nat.div_add_mod j w
            have : j + 1 = w * (j / w + 1) := by rw [Nat.mul_add]; omega
            rw [this, Nat.mul_div_cancel_left _ hw]
          have hc : r.gridx + 1 = (row0.length : Int) := by rw [hx, hrow0]; omega
          refine ⟨true, ?_, ?_, ?_, ?_⟩
          · simp [hc]
          · simp [e1]
          · rw [if_pos (Or.inr hc), hy, e2]; push_cast; ring
          · rw [if_pos (Or.inr hc), e1]; rfl
        · have e1 : (j + 1) % w = j % w + 1 := by
            have hd := Nat.div_add_mod j w
            have : j + 1 = w * (j / w) + (j % w + 1) := by omega
            rw [this, Nat.mul_add_mod, Nat.mod_eq_of_lt (by omega)]
          have e2 : (j + 1) / w = j / w := by
            have hd := Nat.div_add_mod j w
            have : j + 1 = w * (j / w) + (j % w + 1) := by omega
            rw [this, Nat.mul_add_div hw, Nat.div_eq_of_lt (a := j % w + 1) (by omega),
              Nat.add_zero]
          have hc : ¬ (r.gridx + 1 = -1 ∨ r.gridx + 1 = (row0.length : Int)) := by
            rw [hx, hrow0]; omega
          refine ⟨false, ?_, ?_, ?_, ?_⟩
          · simp only [hc, decide_false]
          · simp [e1]
          · rw [if_neg hc, hy, e2]
          · rw [if_neg hc, hx, e1]; push_cast; ring
    obtain ⟨nr, hnr, hnrk, hgy, hgx⟩ := hnew
    have hnr' : (r.gridx + 1 = -1 ∨ r.gridx + 1 = (row0.length : Int)) ↔ k % w = 0 := by
      rw [hnrk] at hnr
      have := congrArg (· = true) hnr
      simpa using this
    have hfg : r.fgrid = row0 :: gr := by rw [hf, hgg]
    have hnext : r.next = if k % w = 0 ∧ ((k / w : Nat) : Int) = (g.length : Int) then .done
        else match (g[k / w]?).bind (·[k % w]?) with
          | some f => .more ⟨g, (k / w : Nat), (k % w : Nat), decide (k % w = 0), f, getBaseName f⟩
          | none => .ub := by
      unfold Reader.next
      rw [hfg]
      simp only
      rw [hgy, hgx, hgg]
      simp only [hnr', Int.toNat_natCast]
      rfl
    constructor
    · intro hk
      have hy : k / w < g.length := (Nat.div_lt_iff_lt_mul hw).2 (by rw [Nat.mul_comm]; exact hk)
      have hx : k % w < w := Nat.mod_lt _ hw
      have hnd : ¬ (k % w = 0 ∧ ((k / w : Nat) : Int) = (g.length : Int)) := by
        rintro ⟨_, h⟩
        have : k / w = g.length := by exact_mod_cast h
        generalize k / w = q at *
        omega
      rw [if_neg hnd, hcell _ _ hx hy] at hnext
      refine ⟨_, hnext, rfl, rfl, rfl, ?_⟩
      simp only [Reader.entry, ent, List.length_eq_zero_iff]
    · intro hk
      subst hk
      rw [hnext, if_pos]
      refine ⟨by rw [Nat.mul_mod_right], ?_⟩
      rw [Nat.mul_div_cancel_left _ hw]
  have main : ∀ m k (r : Reader), r.fgrid = g → k + m = w * g.length →
      (k = 0 ∧ r.gridx = -2 ∧ r.gridy = -1 ∨
        ∃ j, k = j + 1 ∧ r.gridx = (j % w : Nat) ∧ r.gridy = (j / w : Nat)) →
      drain (m + 1) r = some ((List.range' k m).map ent) := by
    intro m
    induction m with
    | zero =>
      intro k r hf hk hpos
      rw [drain, (step k r hf hpos).2 (by omega)]
      rfl
    | succ m ih =>
      intro k r hf hk hpos
      obtain ⟨r', e, hf', hx, hy, he⟩ := (step k r hf hpos).1 (by omega)
      rw [drain, e]
      simp only
      rw [ih (k + 1) r' hf' (by omega) (.inr ⟨k, rfl, hx, hy⟩), he]
      simp [List.range'_succ]
  have := main (w * g.length) 0 (Reader.start g) rfl (by omega) (.inl ⟨rfl, rfl, rfl⟩)
  rw [this, List.range_eq_range']

/-- **C39 is false, concretely**: one blank tile only; the reader then runs outside its grid. -/
theorem C39_single_blank :
    ∃ g', readGrid (writeGrid [[[]]]) = some g' ∧ drain 5 (Reader.start g') = none := by
  exact ⟨[[]], by decide, by decide⟩

/-- Non-vacuity: a 2×2 layout with one null tile. -/
example : readGrid (writeGrid [["d/a.tif".toList, []], [[], "b.tif".toList]]) =
    some [["a.tif".toList, []], [[], "b.tif".toList]] := by decide

/-! ### C90: where the files are -/

/-- C90: the full path of an entry is the directory of the layout file followed by the entry's name. -/
theorem C90_full_path (dir name : Str) (hn : '/' ∉ name) (r : Reader) :
    fullPath (dir ++ '/' :: name) r = dir ++ '/' :: r.filename ∧ fullPath name r = r.filename := by
  unfold fullPath pathOf
  rw [findLast_append dir name hn, findLast_none.2 hn]
  simp only [List.nil_append, and_true]
  rw [show dir ++ '/' :: name = (dir ++ ['/']) ++ name by simp, List.take_left' (by simp)]
  simp

/-- C90: a writer for `base.ext` writes `base.layout`; a name without a period is used as it is. -/
theorem C90_writer_name_partial (base ext : Str) (hp : '.' ∉ ext) :
    writerFile (base ++ '.' :: ext) = base ++ ".layout".toList ∧ ('.' ∉ base → writerFile base = base) := by
  unfold writerFile
  refine ⟨?_, fun hb => ?_⟩
  · rw [findLast_append base ext hp]
    simp only
    rw [show base ++ '.' :: ext = (base ++ ['.']) ++ ext by simp, List.take_left' (by simp)]
    simp
  · rw [findLast_none.2 hb]

/-- C90: with an extension, the layout file is in the directory asked for. -/
theorem C90_same_directory_partial (dir name ext : Str) (hn : '/' ∉ name) (he : '/' ∉ ext) (hp : '.' ∉ ext) :
    pathOf (writerFile (dir ++ '/' :: (name ++ '.' :: ext))) = dir ++ ['/'] ∧
    pathOf (dir ++ '/' :: (name ++ '.' :: ext)) = dir ++ ['/'] := by
  have h1 : '/' ∉ name ++ ".layout".toList := by
    rw [List.mem_append]; rintro (h | h)
    · exact hn h
    · revert h; decide
  have h2 : '/' ∉ name ++ '.' :: ext := by
    rw [List.mem_append, List.mem_cons]; rintro (h | h | h)
    · exact hn h
    · revert h; decide
    · exact he h
  have key : ∀ x : Str, '/' ∉ x → pathOf (dir ++ '/' :: x) = dir ++ ['/'] := by
    intro x hx
    unfold pathOf
    rw [findLast_append dir x hx]
    simp only
    rw [show dir ++ '/' :: x = (dir ++ ['/']) ++ x by simp, List.take_left' (by simp)]
  have e : writerFile (dir ++ '/' :: (name ++ '.' :: ext)) = dir ++ '/' :: (name ++ ".layout".toList) := by
    have := (C90_writer_name_partial (dir ++ '/' :: name) ext hp).1
    simpa using this
  rw [e]
  exact ⟨key _ h1, key _ h2⟩

/-- C90 (refuted): a name without extension below a directory whose name has a period loses that directory: the file is
written beside the directory, under a name cut at the period. -/
theorem C90_directory_lost_refuted (a b name : Str) (hb : '.' ∉ b) (hn : '.' ∉ name) :
    writerFile (a ++ '.' :: b ++ '/' :: name) = a ++ ".layout".toList := by
  have := (C90_writer_name_partial a (b ++ '/' :: name) (by simp [hb, hn])).1
  simpa using this

example : writerFile "runs/v1.2/tiles".toList = "runs/v1.layout".toList ∧
    pathOf (writerFile "runs/v1.2/tiles".toList) = "runs/".toList ∧ pathOf "runs/v1.2/tiles".toList = "runs/v1.2/".toList := by
  decide

theorem decimal_inj {m n : Nat} (h : decimal m = decimal n) : m = n := by
  have h1 : Nat.ofDigitChars 10 (decimal m) 0 = m := Nat.ofDigitChars_ten_toDigits
  have h2 : Nat.ofDigitChars 10 (decimal n) 0 = n := Nat.ofDigitChars_ten_toDigits
  rw [← h1, ← h2, h]

theorem decimal_clean (n : Nat) : '_' ∉ decimal n := by
  intro h
  have := Nat.isDigit_of_mem_toDigits (by decide) (by decide) h
  revert this; decide

/-- C90: different entries of a layout have different location names. -/
theorem C90_location_names (r r' : Reader) (hx : 0 ≤ r.gridx) (hy : 0 ≤ r.gridy) (hx' : 0 ≤ r'.gridx) (hy' : 0 ≤ r'.gridy)
    (h : gridLocName r = gridLocName r') : r.gridx = r'.gridx ∧ r.gridy = r'.gridy := by
  unfold gridLocName at h
  have key : ∀ (a b c d : Str), '_' ∉ a → '_' ∉ c → a ++ '_' :: b = c ++ '_' :: d → a = c ∧ b = d := by
    intro a
    induction a with
    | nil =>
      intro b c d _ hc e
      cases c with
      | nil => simpa using e
      | cons z c =>
        simp only [List.nil_append, List.cons_append, List.cons.injEq] at e
        exact absurd (by rw [← e.1]; simp) hc
    | cons z a ih =>
      intro b c d ha hc e
      cases c with
      | nil =>
        simp only [List.nil_append, List.cons_append, List.cons.injEq] at e
        exact absurd (by simp [e.1]) ha
      | cons z' c =>
        simp only [List.cons_append, List.cons.injEq] at e
        simp only [List.mem_cons, not_or] at ha hc
        obtain ⟨k1, k2⟩ := ih b c d ha.2 hc.2 e.2
        exact ⟨by rw [e.1, k1], k2⟩
  obtain ⟨k1, k2⟩ := key _ _ _ _ (decimal_clean _) (decimal_clean _) h
  have e1 := decimal_inj k1
  have e2 := decimal_inj k2
  omega

/-- The entries an iteration shows have coordinates that are not negative (`C39_iteration`); two of them. -/
example : gridLocName ⟨[], 11, 3, true, [], []⟩ = "3_11".toList := by decide

/-- The layout file of the documentation (Layoutfile.hpp:7-9) reads as three rows of four, with blanks at the ends. -/
example : readGrid "f1, f2, f3,\nf4, f5, f6, f7\n  , f8,   ,\n".toList =
    some [["f1".toList, "f2".toList, "f3".toList, []], ["f4".toList, "f5".toList, "f6".toList, "f7".toList],
      [[], "f8".toList, [], []]] := by decide

end RichDEM
