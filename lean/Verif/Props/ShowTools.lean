/-
Property theorems C124 (the tools that draw a raster or a layout on the terminal) and C125 (the printing
functions of Array2D).
-/
import Verif.Apps.ShowTools
import Verif.Props.DepTools
import Verif.Props.LayoutTools

namespace RichDEM
namespace Tools

open Gdal
open Layout (decimal getlines)
open LTools (pySplit)

/-! ### Specification -/

/-- The words of a line: what stands between blanks. -/
def words (line : Str) : List Str := (pySplit ' ' line).filter fun s => !s.isEmpty

/-- A text read line by line and word by word. -/
def readTable (text : Str) : List (List Str) := (getlines '\n' text).map words

/-- The directives of `rd_raster_display`: whether the user asks to see the raster mirrored and upside
down. -/
def directives : List (Str × Bool × Bool) :=
  [("noflip".toList, false, false), ("fliph".toList, true, false), ("flipv".toList, false, true),
    ("fliphv".toList, true, true)]

/-- Whether the columns have to be reversed: they run to the west, or `fliph`, but not both. -/
def isMirrored {E : Type} (f : File E) (fl : Bool × Bool) : Bool := fl.1 != decide ((shownGT f).g1 < 0)

/-- Whether the rows have to be reversed: they run to the north, or `flipv`, but not both. -/
def isTurned {E : Type} (f : File E) (fl : Bool × Bool) : Bool := fl.2 != decide (0 < (shownGT f).g5)

/-! ### Reading lines and words -/

theorem pySplit_ne (d : Char) (s : Str) : pySplit d s ≠ [] := by
  cases s with
  | nil => simp [pySplit]
  | cons c cs =>
    rw [pySplit]
    split
    · simp
    · split <;> simp

theorem pySplit_append (d : Char) (a b : Str) : pySplit d (a ++ d :: b) = pySplit d a ++ pySplit d b := by
  induction a with
  | nil => simp [pySplit]
  | cons c cs ih =>
    rw [List.cons_append, pySplit, ih, pySplit]
    split
    · rfl
    · cases hs : pySplit d cs with
      | nil => exact absurd hs (pySplit_ne d cs)
      | cons p ps => rfl

theorem pySplit_single (d : Char) (s : Str) (h : d ∉ s) : pySplit d s = [s] := by
  induction s with
  | nil => rfl
  | cons c cs ih =>
    rw [List.mem_cons, not_or] at h
    rw [pySplit, if_neg (fun e => h.1 e.symm), ih h.2]

theorem getlines_line (d : Char) (l rest : Str) (h : d ∉ l) : getlines d (l ++ d :: rest) = l :: getlines d rest := by
  induction l with
  | nil => rw [List.nil_append, getlines, if_pos rfl]
  | cons c cs ih =>
    rw [List.mem_cons, not_or] at h
    rw [List.cons_append, getlines, if_neg (fun e => h.1 e.symm), ih h.2]
    dsimp only
    cases cs <;> rfl

theorem getlines_lines (ls : List Str) (h : ∀ l ∈ ls, '\n' ∉ l) : getlines '\n' (ls.flatMap fun l => l ++ ['\n']) = ls := by
  induction ls with
  | nil => rfl
  | cons l ls ih =>
    rw [List.flatMap_cons, List.append_assoc, List.singleton_append, getlines_line _ _ _ (h l (by simp)),
      ih fun l hl => h l (by simp [hl])]

theorem words_append (a b : Str) : words (a ++ ' ' :: b) = words a ++ words b := by
  unfold words
  rw [pySplit_append, List.filter_append]

theorem words_blank (b : Str) : words (' ' :: b) = words b := by
  have := words_append [] b
  rw [List.nil_append] at this
  rw [this]
  rfl

theorem words_blanks (n : Nat) (b : Str) : words (List.replicate n ' ' ++ b) = words b := by
  induction n with
  | zero => rfl
  | succ n ih => rw [List.replicate_succ, List.cons_append, words_blank, ih]

/-- A word: not empty, without blanks and ends of lines. -/
def IsWord (s : Str) : Prop := s ≠ [] ∧ ' ' ∉ s ∧ '\n' ∉ s

theorem words_word {s : Str} (h : IsWord s) : words s = [s] := by
  unfold words
  rw [pySplit_single _ _ h.2.1, List.filter_cons_of_pos]
  · rfl
  · have := h.1
    cases s <;> simp_all

/-- Items that are each followed by a blank. -/
theorem words_items (n : Nat) (l : List Str) (h : ∀ s ∈ l, IsWord s) :
    words (l.map fun s => padLeft n s ++ [' ']).flatten = l := by
  induction l with
  | nil => rfl
  | cons s l ih =>
    rw [List.map_cons, List.flatten_cons, List.append_assoc, List.singleton_append, words_append,
      ih fun s hs => h s (by simp [hs])]
    unfold padLeft
    rw [words_blanks, words_word (h s (by simp))]
    rfl

/-- Items that are each preceded by a blank. -/
theorem words_fields (n : Nat) (l : List Str) (h : ∀ s ∈ l, IsWord s ∧ s.length < n) :
    words (l.map (padLeft n)).flatten = l := by
  induction l with
  | nil => rfl
  | cons s l ih =>
    have ih := ih fun s hs => h s (by simp [hs])
    have hw := h s (by simp)
    rw [List.map_cons, List.flatten_cons]
    unfold padLeft at ih ⊢
    rw [List.append_assoc, words_blanks]
    cases l with
    | nil =>
      rw [List.map_nil, List.flatten_nil, List.append_nil]
      exact words_word hw.1
    | cons t l =>
      have ht := (h t (by simp)).2
      rw [List.map_cons, List.flatten_cons] at ih ⊢
      obtain ⟨k, hk⟩ : ∃ k, n - t.length = k + 1 := ⟨n - t.length - 1, by omega⟩
      rw [hk, List.replicate_succ, List.cons_append, List.cons_append] at ih ⊢
      rw [words_blank] at ih
      rw [words_append, ih, words_word hw.1]
      rfl

theorem padLeft_noLine {n : Nat} {s : Str} (h : '\n' ∉ s) : '\n' ∉ padLeft n s := by
  unfold padLeft
  rw [List.mem_append, not_or]
  refine ⟨fun hm => ?_, h⟩
  exact absurd (List.eq_of_mem_replicate hm) (by decide)

/-! ### Numbers -/

theorem decimal_word (n : Nat) : IsWord (decimal n) := by
  obtain ⟨c, l, e, _, hall⟩ := decimal_shape n
  refine ⟨by rw [e]; simp, fun h => ?_, fun h => ?_⟩ <;>
  · have := hall _ h
    revert this
    decide

theorem intText_word (v : Int) : IsWord (intText v) := by
  have := decimal_word v.natAbs
  unfold intText
  split
  · refine ⟨by simp, ?_, ?_⟩ <;> simp [this.2.1, this.2.2]
  · exact this

theorem stoi_intText (v : Int) (h1 : -2 ^ 31 ≤ v) (h2 : v < 2 ^ 31) : stoi (intText v) = .ok v := by
  unfold intText
  split
  · have := stoi_negative v.natAbs (by omega) [] (by simp)
    rw [List.append_nil] at this
    rw [this]
    congr 1
    omega
  · have := stoi_decimal v.natAbs (by omega) [] (by simp)
    rw [List.append_nil] at this
    rw [this]
    congr 1
    omega

theorem decimal_short (n k : Nat) (hk : 0 < k) (h : n < 10 ^ k) : (decimal n).length ≤ k := by
  unfold decimal
  exact (Nat.length_toDigits_le_iff (by decide) hk).2 h

theorem intText_short (v : Int) (h1 : -100000 < v) (h2 : v < 1000000) : (intText v).length ≤ 6 := by
  unfold intText
  split
  · have := decimal_short v.natAbs 5 (by decide) (by omega)
    rw [List.length_cons]
    omega
  · exact decimal_short v.natAbs 6 (by decide) (by omega)

/-! ### rd_raster_display -/

section
variable {E : Type}

theorem displayed_spec (f : File E) (gf : GoodFile f) (fl : Bool × Bool) :
    (isMirrored f fl = true → displayed (ofFile f) fl = none) ∧
    (isMirrored f fl = false → ∃ r, displayed (ofFile f) fl = some r ∧ r.w = f.width.toNat ∧ r.h = f.height.toNat ∧
      ∀ x y : Nat, x < r.w → y < r.h → r.cell x y = some (seen f (isTurned f fl) x y)) := by
  have hwp := gf.wpos
  have hhp := gf.hpos
  have hc1 : (ofFile f).geotransform.getD 1 0 = (shownGT f).g1 := by
    unfold ofFile; dsimp only; rw [geotransform_eq]; rfl
  have hc5 : (ofFile f).geotransform.getD 5 0 = (shownGT f).g5 := by
    unfold ofFile; dsimp only; rw [geotransform_eq]; rfl
  have hm : xor (decide ((shownGT f).g1 < 0)) fl.1 = isMirrored f fl := by
    unfold isMirrored
    cases fl.1 <;> cases decide ((shownGT f).g1 < 0) <;> rfl
  have ht : xor (decide (0 < (shownGT f).g5)) fl.2 = isTurned f fl := by
    unfold isTurned
    cases fl.2 <;> cases decide (0 < (shownGT f).g5) <;> rfl
  unfold displayed
  dsimp only
  rw [hc1, hc5, hm, ht]
  constructor
  · intro h1
    have hn : (toRaster (ofFile f)).flipHorz = none :=
      C34_flipHorz_out_of_bounds _ (toRaster_wf _) (by show 0 < f.width.toNat; omega) (by show 0 < f.height.toNat; omega)
    rw [if_pos h1, hn]
    split <;> rfl
  · intro h1
    rw [show (if isMirrored f fl = true then (toRaster (ofFile f)).flipHorz else some (toRaster (ofFile f))) =
      some (toRaster (ofFile f)) from if_neg (by simp [h1])]
    cases h2 : isTurned f fl
    · refine ⟨toRaster (ofFile f), by simp, rfl, rfl, fun x y hx hy => ?_⟩
      rw [toRaster_cell _ (show (x : Int) < f.width by change x < f.width.toNat at hx; omega)
        (show (y : Int) < f.height by change y < f.height.toNat at hy; omega)]
      rfl
    · obtain ⟨r, hr, _, r2, r3, r4⟩ := C34_flipVert (toRaster (ofFile f)) (toRaster_wf _)
      refine ⟨r, by simpa using hr, r2, r3, fun x y hx hy => ?_⟩
      have hx' : x < f.width.toNat := by rw [r2] at hx; exact hx
      have hy' : y < f.height.toNat := by rw [r3] at hy; exact hy
      rw [r4 x y hx' hy', toRaster_cell _ (show (x : Int) < f.width by omega)
        (by show ((f.height.toNat - 1 - y : Nat) : Int) < f.height; omega)]
      unfold seen
      rw [if_pos rfl]
      show some (f.band _ _) = some (f.band _ _)
      congr 2
      show ((f.height.toNat - 1 - y : Nat) : Int) = _
      omega

theorem directive_flags {flip : Str} {fl : Bool × Bool} (h : (flip, fl) ∈ directives) : flipFlags flip = some fl := by
  simp only [directives, List.mem_cons, Prod.mk.injEq, List.not_mem_nil, or_false] at h
  rcases h with ⟨rfl, rfl⟩ | ⟨rfl, rfl⟩ | ⟨rfl, rfl⟩ | ⟨rfl, rfl⟩ <;> decide

/-- The text of a run that shows something. -/
theorem display_text (toInt : E → Option Int) {files : Str → Option (File E)} {inp flip : Str} {f : File E} {fl : Bool × Bool}
    (hf : files inp = some f) (gf : GoodFile f) (hd : (flip, fl) ∈ directives) (hm : isMirrored f fl = false)
    (n : Nat → Nat → Int)
    (hn : ∀ x y : Nat, x < f.width.toNat → y < f.height.toNat → toInt (seen f (isTurned f fl) x y) = some (n x y)) :
    displayTool toInt files [inp, flip] = .ok (0,
      (((List.range f.height.toNat).map fun y => ((List.range f.width.toNat).map fun x =>
        padLeft 6 (intText (n x y)) ++ [' ']).flatten).flatMap fun l => l ++ ['\n'])) := by
  obtain ⟨r, hr, rw', rh, rc⟩ := (displayed_spec f gf fl).2 hm
  unfold displayTool
  dsimp only
  rw [withFile_good hf gf, directive_flags hd]
  dsimp only
  rw [hr]
  dsimp only
  rw [mapM_some (displayRow toInt r) (fun y => ((List.range f.width.toNat).map fun x =>
        padLeft 6 (intText (n x y)) ++ [' ']).flatten ++ ['\n'])]
  · dsimp only
    rw [rh, List.flatMap_map, List.flatMap_def]
  · intro y hy
    rw [List.mem_range] at hy
    unfold displayRow
    rw [mapM_some (cellText toInt r y) (fun x => padLeft 6 (intText (n x y)) ++ [' ']), rw']
    · rfl
    · intro x hx
      rw [List.mem_range] at hx
      unfold cellText
      rw [rc x y hx hy, Option.bind_some, hn x y (by omega) (by omega)]
      rfl

/-- **C124 (what `rd_raster_display` shows).** If the view need not be mirrored and the cells can be turned
into `int`s, then the program shows one line for each row and one number for each cell, the northernmost
row first (the southernmost with `flipv` or `fliphv`): read by lines, by words and with `std::stoi`, the
text gives back the cells as `int`s. -/
theorem C124_display_partial (toInt : E → Option Int) (files : Str → Option (File E)) (inp flip : Str) (f : File E)
    (fl : Bool × Bool) (hf : files inp = some f) (gf : GoodFile f) (hd : (flip, fl) ∈ directives)
    (hm : isMirrored f fl = false)
    (hi : ∀ c, InGrid f.width.toNat f.height.toNat c → ∃ i, toInt (fileDem f c) = some i ∧ -2 ^ 31 ≤ i ∧ i < 2 ^ 31) :
    ∃ text, displayTool toInt files [inp, flip] = .ok (0, text) ∧
      (readTable text).map (·.map stoi) =
        (List.range f.height.toNat).map fun y => (List.range f.width.toNat).map fun x =>
          .ok ((toInt (if isTurned f fl then fileDem f (x, f.height - 1 - y) else fileDem f (x, y))).getD 0) := by
  have hs : ∀ x y : Nat, seen f (isTurned f fl) x y =
      if isTurned f fl then fileDem f (x, f.height - 1 - y) else fileDem f (x, y) := by
    intro x y
    unfold seen fileDem
    rfl
  have key : ∀ x y : Nat, x < f.width.toNat → y < f.height.toNat → ∃ i, toInt (seen f (isTurned f fl) x y) = some i ∧
      -2 ^ 31 ≤ i ∧ i < 2 ^ 31 := by
    intro x y hx hy
    rw [hs]
    split
    · exact hi _ (by simp only [InGrid]; omega)
    · exact hi _ (by simp only [InGrid]; omega)
  refine ⟨_, display_text toInt hf gf hd hm (fun x y => (toInt (seen f (isTurned f fl) x y)).getD 0) ?_, ?_⟩
  · intro x y hx hy
    obtain ⟨i, h1, _⟩ := key x y hx hy
    rw [h1]
    rfl
  · unfold readTable
    rw [getlines_lines]
    · rw [List.map_map, List.map_map]
      refine List.map_congr_left fun y hy => ?_
      rw [List.mem_range] at hy
      have hw := words_items 6 ((List.range f.width.toNat).map fun x : Nat =>
        intText ((toInt (seen f (isTurned f fl) x y)).getD 0)) (by
          intro s hs
          obtain ⟨x, _, rfl⟩ := List.mem_map.1 hs
          exact intText_word _)
      rw [List.map_map] at hw
      dsimp only [Function.comp]
      rw [show (List.map (fun x : Nat => padLeft 6 (intText ((toInt (seen f (isTurned f fl) x y)).getD 0)) ++ [' '])
          (List.range f.width.toNat)) = List.map ((fun s => padLeft 6 s ++ [' ']) ∘ fun x : Nat =>
            intText ((toInt (seen f (isTurned f fl) x y)).getD 0)) (List.range f.width.toNat) from rfl, hw, List.map_map]
      refine List.map_congr_left fun x hx => ?_
      rw [List.mem_range] at hx
      obtain ⟨i, h1, h2, h3⟩ := key x y hx hy
      rw [← hs]
      show stoi (intText _) = _
      rw [h1]
      exact stoi_intText i h2 h3
    · intro l hl
      obtain ⟨y, _, rfl⟩ := List.mem_map.1 hl
      rw [List.mem_flatten]
      rintro ⟨p, hp, hc⟩
      obtain ⟨x, _, rfl⟩ := List.mem_map.1 hp
      rw [List.mem_append] at hc
      rcases hc with hc | hc
      · exact padLeft_noLine (intText_word _).2.2 hc
      · revert hc; decide

/-- **C124 (the columns are aligned).** If all numbers are between -99 999 and 999 999, each column is
seven characters wide. -/
theorem C124_aligned_partial (toInt : E → Option Int) (files : Str → Option (File E)) (inp flip : Str) (f : File E)
    (fl : Bool × Bool) (hf : files inp = some f) (gf : GoodFile f) (hd : (flip, fl) ∈ directives)
    (hm : isMirrored f fl = false)
    (hi : ∀ c, InGrid f.width.toNat f.height.toNat c → ∃ i, toInt (fileDem f c) = some i ∧ -100000 < i ∧ i < 1000000) :
    ∃ text, displayTool toInt files [inp, flip] = .ok (0, text) ∧
      (getlines '\n' text).length = f.height.toNat ∧ ∀ line ∈ getlines '\n' text, line.length = 7 * f.width.toNat := by
  have key : ∀ x y : Nat, x < f.width.toNat → y < f.height.toNat → ∃ i, toInt (seen f (isTurned f fl) x y) = some i ∧
      -100000 < i ∧ i < 1000000 := by
    intro x y hx hy
    unfold seen
    split
    · exact hi ((x : Int), f.height - 1 - y) (by simp only [InGrid]; omega)
    · exact hi ((x : Int), (y : Int)) (by simp only [InGrid]; omega)
  refine ⟨_, display_text toInt hf gf hd hm (fun x y => (toInt (seen f (isTurned f fl) x y)).getD 0) ?_, ?_⟩
  · intro x y hx hy
    obtain ⟨i, h1, _⟩ := key x y hx hy
    rw [h1]
    rfl
  · rw [getlines_lines]
    · refine ⟨by simp, fun l hl => ?_⟩
      obtain ⟨y, hy, rfl⟩ := List.mem_map.1 hl
      rw [List.mem_range] at hy
      have : ∀ k ≤ f.width.toNat, ((List.range k).map fun x : Nat =>
          padLeft 6 (intText ((toInt (seen f (isTurned f fl) x y)).getD 0)) ++ [' ']).flatten.length = 7 * k := by
        intro k
        induction k with
        | zero => intro _; rfl
        | succ k ih =>
          intro hk
          obtain ⟨i, h1, h2, h3⟩ := key k y (by omega) hy
          have := intText_short i h2 h3
          rw [List.range_succ, List.map_append, List.flatten_append, List.length_append, ih (by omega)]
          simp only [List.map_cons, List.map_nil, List.flatten_cons, List.flatten_nil, List.append_nil, h1, Option.getD_some,
            padLeft, List.length_append, List.length_replicate, List.length_singleton]
          omega
      exact this _ le_rfl
    · intro l hl
      obtain ⟨y, _, rfl⟩ := List.mem_map.1 hl
      rw [List.mem_flatten]
      rintro ⟨p, hp, hc⟩
      obtain ⟨x, _, rfl⟩ := List.mem_map.1 hp
      rw [List.mem_append] at hc
      rcases hc with hc | hc
      · exact padLeft_noLine (intText_word _).2.2 hc
      · revert hc; decide

/-- **C124, refuted (`fliph`).** Whenever the view has to be mirrored the behaviour is undefined, so `fliph`
and `fliphv` cannot be used with columns that run to the east, nor the others with columns that run to
the west. -/
theorem C124_mirror_refuted (toInt : E → Option Int) (files : Str → Option (File E)) (inp flip : Str) (f : File E)
    (fl : Bool × Bool) (hf : files inp = some f) (gf : GoodFile f) (hd : (flip, fl) ∈ directives)
    (hm : isMirrored f fl = true) : displayTool toInt files [inp, flip] = .ub := by
  unfold displayTool
  dsimp only
  rw [withFile_good hf gf, directive_flags hd]
  dsimp only
  rw [(displayed_spec f gf fl).1 hm]

/-- **C124, refuted (every raster can be shown).** A cell that cannot be turned into an `int`, such as a
floating-point NoData value of -3.4e38, makes the behaviour undefined. -/
theorem C124_int_refuted (toInt : E → Option Int) (files : Str → Option (File E)) (inp flip : Str) (f : File E)
    (fl : Bool × Bool) (hf : files inp = some f) (gf : GoodFile f) (hd : (flip, fl) ∈ directives)
    (c : Cell) (hc : InGrid f.width.toNat f.height.toNat c) (hi : toInt (fileDem f c) = none) :
    displayTool toInt files [inp, flip] = .ub := by
  cases hm : isMirrored f fl
  swap
  · exact C124_mirror_refuted toInt files inp flip f fl hf gf hd hm
  obtain ⟨r, hr, rw', rh, rc⟩ := (displayed_spec f gf fl).2 hm
  unfold displayTool
  dsimp only
  rw [withFile_good hf gf, directive_flags hd]
  dsimp only
  rw [hr]
  dsimp only
  simp only [InGrid] at hc
  obtain ⟨y, hy, hyc⟩ : ∃ y : Nat, y < f.height.toNat ∧ seen f (isTurned f fl) (c.1.toNat : Int) y = fileDem f c := by
    unfold seen fileDem
    cases isTurned f fl
    · refine ⟨c.2.toNat, by omega, ?_⟩
      rw [if_neg (by decide)]
      congr 1 <;> omega
    · refine ⟨(f.height - 1 - c.2).toNat, by omega, ?_⟩
      rw [if_pos rfl]
      congr 1 <;> omega
  have hrow : displayRow toInt r y = none := by
    unfold displayRow
    rw [mapM_none _ _ c.1.toNat (by rw [List.mem_range]; omega)]
    · rfl
    · unfold cellText
      rw [rc _ _ (by omega) (by omega), Option.bind_some, hyc, hi]
      rfl
  rw [mapM_none _ _ y (by rw [List.mem_range]; omega) hrow]

/-- **C124 (wrong use).** Without exactly two arguments the program ends with -1 and shows nothing; a file
that does not exist ends it with an exception. Partial: an unknown directive shows nothing, but the
program ends with 0 as after success. -/
theorem C124_usage_partial (toInt : E → Option Int) (files : Str → Option (File E)) :
    (∀ rest : List Str, rest.length ≠ 2 → displayTool toInt files rest = .ok (-1, [])) ∧
    (∀ inp flip, files inp = none → displayTool toInt files [inp, flip] = .throws) ∧
    ∀ inp flip f, files inp = some f → GoodFile f → flip ∉ directives.map Prod.fst →
      displayTool toInt files [inp, flip] = .ok (0, []) := by
  refine ⟨fun rest hr => ?_, fun inp flip h => ?_, fun inp flip f hf gf hn => ?_⟩
  · match rest, hr with
    | [], _ => rfl
    | [_], _ => rfl
    | [_, _], hr => exact absurd rfl hr
    | _ :: _ :: _ :: _, _ => rfl
  · unfold displayTool withFile
    dsimp only
    rw [h]
  · have : flipFlags flip = none := by
      simp only [directives, List.map_cons, List.map_nil, List.mem_cons, List.not_mem_nil, or_false, not_or] at hn
      unfold flipFlags
      rw [if_neg hn.2.1, if_neg hn.2.2.1, if_neg hn.2.2.2, if_neg hn.1]
    unfold displayTool
    dsimp only
    rw [withFile_good hf gf, this]

end

/-- **C124, refuted (different cells look different).** Cells are truncated to whole numbers: heights of
-0.9 and 0.9 are both shown as 0. -/
theorem C124_truncated_refuted :
    let toInt : ℚ → Option Int := fun q => some (Int.tdiv q.num q.den)
    let file : List (List ℚ) → File ℚ := fun rows =>
      { width := 2, height := 1, band := fun x y => ofRows 0 rows (x, y), gt := none, projection := [], noData := -1, mdata := none }
    displayTool toInt (fun _ => some (file [[9 / 10, 3 / 2]])) ["in".toList, "noflip".toList] =
      displayTool toInt (fun _ => some (file [[-9 / 10, 1]])) ["in".toList, "noflip".toList] := by
  decide +kernel

/-! ### rd_layout_display.py -/

/-- **C124 (what `rd_layout_display.py` shows).** One line for each line of the layout file, one character
for each entry: `#` if it names a tile, a blank if not. -/
theorem C124_layout (text : Str) :
    (getlines '\n' (LTools.layoutDisplay text)).length = (getlines '\n' text).length ∧
    ∀ y line, (getlines '\n' text)[y]? = some line → ∃ shown,
      (getlines '\n' (LTools.layoutDisplay text))[y]? = some shown ∧
      shown.length = (pySplit ',' (LTools.pyStrip line)).length ∧
      ∀ x, x < shown.length →
        (LTools.hasTile (LTools.fgrid text) y x = true → shown[x]? = some '#') ∧
        (LTools.hasTile (LTools.fgrid text) y x = false → shown[x]? = some ' ') := by
  have e : getlines '\n' (LTools.layoutDisplay text) = (LTools.fgrid text).map fun line =>
      line.map fun e => if 0 < (LTools.pyStrip e).length then '#' else ' ' := by
    have := getlines_lines ((LTools.fgrid text).map fun line =>
      line.map fun e => if 0 < (LTools.pyStrip e).length then '#' else ' ') (by
        intro l hl
        obtain ⟨line, _, rfl⟩ := List.mem_map.1 hl
        intro hm
        obtain ⟨e, _, he⟩ := List.mem_map.1 hm
        revert he
        split <;> decide)
    rw [List.flatMap_map] at this
    exact this
  rw [e]
  refine ⟨by simp [LTools.fgrid], fun y line hy => ?_⟩
  have hg : (LTools.fgrid text)[y]? = some (pySplit ',' (LTools.pyStrip line)) := by
    unfold LTools.fgrid
    rw [List.getElem?_map, hy]
    rfl
  refine ⟨_, by rw [List.getElem?_map, hg]; rfl, by simp, fun x hx => ?_⟩
  rw [List.length_map] at hx
  unfold LTools.hasTile
  rw [hg, List.getElem?_map]
  dsimp only
  rw [List.getElem?_eq_getElem hx]
  dsimp only [Option.map_some]
  cases hs : LTools.pyStrip (pySplit ',' (LTools.pyStrip line))[x] <;> simp

/-! ### The printing functions of Array2D -/

theorem flatten_at {α : Type} (m : Nat) (l : List (List α)) (h : ∀ p ∈ l, p.length = m) (i j : Nat) (hj : j < m) :
    l.flatten[m * i + j]? = l[i]?.bind fun p => p[j]? := by
  induction l generalizing i with
  | nil => simp
  | cons p l ih =>
    have hp := h p (by simp)
    rw [List.flatten_cons]
    cases i with
    | zero =>
      rw [List.getElem?_append_left (by omega)]
      simp
    | succ i =>
      have e : m * (i + 1) + j = m + (m * i + j) := by ring
      rw [List.getElem?_append_right (by omega), e, hp, Nat.add_sub_cancel_left, ih (fun q hq => h q (by simp [hq]))]
      simp

theorem flowsText_eq (r : Raster Nat) (hr : r.WF) (fwidth : Nat) :
    flowsText r fwidth = some (((List.range r.h).map fun y => ((List.range r.w).map fun x =>
      padLeft fwidth (if (r.cell x y).getD 0 ≤ 8 then decimal ((r.cell x y).getD 0) else ['?'])).flatten).flatMap
        fun l => l ++ ['\n']) := by
  have hr' : r.data.length = r.w * r.h := hr
  have hf : ∀ y, y < r.h → ((List.range r.w).mapM fun x => (r.cell x y).map fun d =>
      padLeft fwidth (if d ≤ 8 then decimal d else ['?'])) = some ((List.range r.w).map fun x =>
        padLeft fwidth (if (r.cell x y).getD 0 ≤ 8 then decimal ((r.cell x y).getD 0) else ['?'])) := by
    intro y hy
    refine mapM_some _ _ _ fun x hx => ?_
    rw [List.mem_range] at hx
    have h1 := Raster.idx_lt hx hy
    rw [Raster.cell_eq r hx hy, List.getElem?_eq_getElem (by omega)]
    rfl
  unfold flowsText
  rw [mapM_some _ (fun y => ((List.range r.w).map fun x =>
    padLeft fwidth (if (r.cell x y).getD 0 ≤ 8 then decimal ((r.cell x y).getD 0) else ['?'])).flatten ++ ['\n'])]
  · rw [Option.map_some, List.flatMap_map, List.flatMap_def]
  · intro y hy
    rw [List.mem_range] at hy
    rw [hf y hy]
    rfl

theorem flow_char (d : Nat) : IsWord (if d ≤ 8 then decimal d else ['?']) ∧
    ∃ c, (if d ≤ 8 then decimal d else ['?']) = [c] ∧ c ≠ '\n' := by
  have hw : IsWord (if d ≤ 8 then decimal d else ['?']) := by
    split
    · exact decimal_word d
    · exact ⟨by decide, by decide, by decide⟩
  refine ⟨hw, ?_⟩
  have hl : (if d ≤ 8 then decimal d else ['?']).length ≤ 1 := by
    split
    · exact decimal_short d 1 (by decide) (by omega)
    · rfl
  match hs : (if d ≤ 8 then decimal d else ['?']), hw, hl with
  | [], hw, _ => exact absurd rfl hw.1
  | [c], hw, _ => exact ⟨c, rfl, fun e => hw.2.2 (by simp [e])⟩

/-- **C125 (`printAllFlows`).** Whatever the width of the fields there is a line for each row with one
field for each cell, all equally wide, and the last character of a field is the code, if it is from 0 to
8, or a question mark. -/
theorem C125_flows (r : Raster Nat) (hr : r.WF) (fwidth : Nat) :
    ∃ text, flowsText r fwidth = some text ∧ (getlines '\n' text).length = r.h ∧
      ∀ y, y < r.h → ∃ line, (getlines '\n' text)[y]? = some line ∧ line.length = max fwidth 1 * r.w ∧
        ∀ x d, r.cell x y = some d →
          line[max fwidth 1 * x + (max fwidth 1 - 1)]? = some (if d ≤ 8 then Nat.digitChar d else '?') := by
  have hlen : ∀ d : Nat, (padLeft fwidth (if d ≤ 8 then decimal d else ['?'])).length = max fwidth 1 := by
    intro d
    obtain ⟨-, c, hc, -⟩ := flow_char d
    rw [hc]
    unfold padLeft
    simp only [List.length_append, List.length_replicate, List.length_singleton]
    omega
  refine ⟨_, flowsText_eq r hr fwidth, ?_⟩
  rw [getlines_lines]
  · refine ⟨by simp, fun y hy => ?_⟩
    have hl : ∀ p ∈ (List.range r.w).map fun x =>
        padLeft fwidth (if (r.cell x y).getD 0 ≤ 8 then decimal ((r.cell x y).getD 0) else ['?']), p.length = max fwidth 1 := by
      intro p hp
      obtain ⟨x, _, rfl⟩ := List.mem_map.1 hp
      exact hlen _
    refine ⟨_, by rw [List.getElem?_map, List.getElem?_range hy]; rfl, ?_, fun x d hd => ?_⟩
    · have hc : ∀ l : List (List Char), (∀ p ∈ l, p.length = max fwidth 1) → l.flatten.length = max fwidth 1 * l.length := by
        intro l
        induction l with
        | nil => intro _; rfl
        | cons p l ih =>
          intro h
          rw [List.flatten_cons, List.length_append, ih fun q hq => h q (by simp [hq]), h p (by simp), List.length_cons]
          ring
      have := hc _ hl
      rw [List.length_map, List.length_range] at this
      exact this
    · have hx : x < r.w := by
        by_contra hn
        unfold Raster.cell at hd
        rw [if_neg (fun k => hn k.1)] at hd
        cases hd
      rw [flatten_at (max fwidth 1) _ hl x _ (by omega), List.getElem?_map, List.getElem?_range hx, Option.map_some, hd]
      show (padLeft fwidth (if d ≤ 8 then decimal d else ['?']))[max fwidth 1 - 1]? = _
      have hk : max fwidth 1 - 1 = (List.replicate (fwidth - 1) ' ').length := by
        rw [List.length_replicate]; omega
      have hdig : (if d ≤ 8 then decimal d else ['?']) = [if d ≤ 8 then Nat.digitChar d else '?'] := by
        split
        · rename_i h8
          interval_cases d <;> decide
        · rfl
      rw [hdig]
      unfold padLeft
      rw [hk, List.length_singleton, List.getElem?_append_right le_rfl, Nat.sub_self]
      rfl
  · intro l hl
    obtain ⟨y, _, rfl⟩ := List.mem_map.1 hl
    rw [List.mem_flatten]
    rintro ⟨p, hp, hm⟩
    obtain ⟨x, _, rfl⟩ := List.mem_map.1 hp
    exact padLeft_noLine (flow_char _).1.2.2 hm

/-- **C125 (`printAllFlows`).** With a field of at least two characters the text, read by lines and words,
gives back the codes from 0 to 8, with a question mark for every other. -/
theorem C125_flows_partial (r : Raster Nat) (hr : r.WF) (fwidth : Nat) (hfw : 2 ≤ fwidth) :
    ∃ text, flowsText r fwidth = some text ∧
      (readTable text).length = r.h ∧ ∀ y, y < r.h → ∃ line, (readTable text)[y]? = some line ∧ line.length = r.w ∧
        ∀ x d, r.cell x y = some d → line[x]? = some (if d ≤ 8 then decimal d else ['?']) := by
  have hr' : r.data.length = r.w * r.h := hr
  have hc : ∀ x y, x < r.w → y < r.h → ∃ d, r.cell x y = some d := by
    intro x y hx hy
    have := Raster.idx_lt hx hy
    rw [Raster.cell_eq r hx hy]
    exact ⟨_, List.getElem?_eq_getElem (by omega)⟩
  have hf : ∀ y, y < r.h → ((List.range r.w).mapM fun x => (r.cell x y).map fun d =>
      padLeft fwidth (if d ≤ 8 then decimal d else ['?'])) = some ((List.range r.w).map fun x =>
        padLeft fwidth (if (r.cell x y).getD 0 ≤ 8 then decimal ((r.cell x y).getD 0) else ['?'])) := by
    intro y hy
    refine mapM_some _ _ _ fun x hx => ?_
    rw [List.mem_range] at hx
    obtain ⟨d, hd⟩ := hc x y hx hy
    rw [hd]
    rfl
  have hword : ∀ d : Nat, IsWord (if d ≤ 8 then decimal d else ['?']) ∧ (if d ≤ 8 then decimal d else ['?']).length < fwidth := by
    intro d
    split
    · exact ⟨decimal_word d, by have := decimal_short d 1 (by decide) (by omega); omega⟩
    · exact ⟨⟨by decide, by decide, by decide⟩, by show 1 < fwidth; omega⟩
  have ht : flowsText r fwidth = some (((List.range r.h).map fun y => ((List.range r.w).map fun x =>
      padLeft fwidth (if (r.cell x y).getD 0 ≤ 8 then decimal ((r.cell x y).getD 0) else ['?'])).flatten).flatMap
        fun l => l ++ ['\n']) := by
    unfold flowsText
    rw [mapM_some _ (fun y => ((List.range r.w).map fun x =>
      padLeft fwidth (if (r.cell x y).getD 0 ≤ 8 then decimal ((r.cell x y).getD 0) else ['?'])).flatten ++ ['\n'])]
    · rw [Option.map_some, List.flatMap_map, List.flatMap_def]
    · intro y hy
      rw [List.mem_range] at hy
      rw [hf y hy]
      rfl
  refine ⟨_, ht, ?_⟩
  unfold readTable
  rw [getlines_lines]
  · refine ⟨by simp, fun y hy => ?_⟩
    have hw := words_fields fwidth ((List.range r.w).map fun x =>
      if (r.cell x y).getD 0 ≤ 8 then decimal ((r.cell x y).getD 0) else ['?']) (by
        intro s hs
        obtain ⟨x, _, rfl⟩ := List.mem_map.1 hs
        exact hword _)
    rw [List.map_map] at hw
    refine ⟨(List.range r.w).map fun x => if (r.cell x y).getD 0 ≤ 8 then decimal ((r.cell x y).getD 0) else ['?'], ?_,
      by simp, fun x d hd => ?_⟩
    · rw [List.getElem?_map, List.getElem?_map, List.getElem?_range hy]
      exact congrArg some hw
    · have hx : x < r.w := by
        by_contra hn
        unfold Raster.cell at hd
        rw [if_neg (fun k => hn k.1)] at hd
        cases hd
      rw [List.getElem?_map, List.getElem?_range hx, Option.map_some, hd]
      rfl
  · intro l hl
    obtain ⟨y, _, rfl⟩ := List.mem_map.1 hl
    rw [List.mem_flatten]
    rintro ⟨p, hp, hm⟩
    obtain ⟨x, _, rfl⟩ := List.mem_map.1 hp
    exact padLeft_noLine (hword _).1.2.2 hm

/-- **C125 (`printAllIndices`).** Read by lines and words, the text has one line for each row with the
numbers of its cells in storage. -/
theorem C125_indices (w h : Nat) :
    readTable (indicesText w h) = (List.range h).map fun y => (List.range w).map fun x => decimal (y * w + x) := by
  have e : indicesText w h = ((List.range h).map fun y => (((List.range w).map fun x => decimal (y * w + x)).map
      fun s => padLeft 5 s ++ [' ']).flatten).flatMap fun l => l ++ ['\n'] := by
    unfold indicesText
    rw [List.flatMap_map]
    refine congrArg (fun g => List.flatMap g (List.range h)) (funext fun y => ?_)
    rw [List.map_map, List.flatMap_def]
    rfl
  unfold readTable
  rw [e, getlines_lines, List.map_map]
  · refine List.map_congr_left fun y _ => words_items 5 _ fun s hs => ?_
    obtain ⟨x, _, rfl⟩ := List.mem_map.1 hs
    exact decimal_word _
  · intro l hl
    obtain ⟨y, _, rfl⟩ := List.mem_map.1 hl
    rw [List.mem_flatten]
    rintro ⟨p, hp, hm⟩
    obtain ⟨s, hs, rfl⟩ := List.mem_map.1 hp
    obtain ⟨x, _, rfl⟩ := List.mem_map.1 hs
    rw [List.mem_append] at hm
    rcases hm with hm | hm
    · exact padLeft_noLine (decimal_word _).2.2 hm
    · revert hm; decide

theorem mem_below {a b x : Int} : x ∈ below a b ↔ a ≤ x ∧ x < b := by
  unfold below
  simp only [List.mem_map, List.mem_range]
  constructor
  · rintro ⟨k, hk, rfl⟩; omega
  · rintro ⟨h1, h2⟩; exact ⟨(x - a).toNat, by omega, by omega⟩

/-- **C125 (`printBlock`).** If the ends of the block are `int`s, the function reads only cells of the
raster and shows, in order, the cells of the `2·radius` columns and rows from `radius` before the centre
on, as far as they are in the raster. Only the centre is in colour, if asked for. -/
theorem C125_block_partial {E : Type} (r : Raster E) (hr : r.WF) (radius x0 y0 : Int) (color : Bool)
    (hx : -2 ^ 31 ≤ x0 - radius ∧ x0 - radius < 2 ^ 31 ∧ -2 ^ 31 ≤ x0 + radius ∧ x0 + radius < 2 ^ 31)
    (hy : -2 ^ 31 ≤ y0 - radius ∧ y0 - radius < 2 ^ 31 ∧ -2 ^ 31 ≤ y0 + radius ∧ y0 + radius < 2 ^ 31) :
    ∃ (rows : List (List (E × Bool))) (xs ys : List Int), blockShown r radius x0 y0 color = some rows ∧
      xs.Pairwise (· < ·) ∧ (∀ x : Int, x ∈ xs ↔ (0 ≤ x ∧ x < r.w) ∧ x0 - radius ≤ x ∧ x < x0 + radius) ∧
      ys.Pairwise (· < ·) ∧ (∀ y : Int, y ∈ ys ↔ (0 ≤ y ∧ y < r.h) ∧ y0 - radius ≤ y ∧ y < y0 + radius) ∧
      rows.map (·.map fun p => (some p.1, p.2)) = ys.map fun y => xs.map fun x =>
        (r.cell x.toNat y.toNat, decide (color = true ∧ x = x0 ∧ y = y0)) := by
  have hr' : r.data.length = r.w * r.h := hr
  have sorted : ∀ a b : Int, (below a b).Pairwise (· < ·) := by
    intro a b
    unfold below
    rw [List.pairwise_map]
    exact List.pairwise_lt_range.imp (by intro i j hij; omega)
  have hc : ∀ x y : Int, (0 ≤ x ∧ x < r.w) → (0 ≤ y ∧ y < r.h) → ∃ d, r.cell x.toNat y.toNat = some d := by
    intro x y hx hy
    have h1 : x.toNat < r.w := by omega
    have h2 : y.toNat < r.h := by omega
    have := Raster.idx_lt h1 h2
    rw [Raster.cell_eq r h1 h2]
    exact ⟨_, List.getElem?_eq_getElem (by omega)⟩
  have hb : blockRange r.w r.h radius x0 y0 =
      some (max 0 (x0 - radius), max 0 (y0 - radius), min (r.w : Int) (x0 + radius), min (r.h : Int) (y0 + radius)) := by
    unfold blockRange intMax
    rw [if_pos (by omega)]
  have mx : ∀ x : Int, x ∈ below (max 0 (x0 - radius)) (min (r.w : Int) (x0 + radius)) ↔
      (0 ≤ x ∧ x < r.w) ∧ x0 - radius ≤ x ∧ x < x0 + radius := by intro x; rw [mem_below]; omega
  have my : ∀ y : Int, y ∈ below (max 0 (y0 - radius)) (min (r.h : Int) (y0 + radius)) ↔
      (0 ≤ y ∧ y < r.h) ∧ y0 - radius ≤ y ∧ y < y0 + radius := by intro y; rw [mem_below]; omega
  have step : ∀ (f : Int → Int → Option (E × Bool)) (xs ys : List Int),
      (∀ x ∈ xs, ∀ y ∈ ys, ∃ p, f y x = some p ∧
        (some p.1, p.2) = (r.cell x.toNat y.toNat, decide (color = true ∧ x = x0 ∧ y = y0))) →
      ∃ rows, (ys.mapM fun y => xs.mapM (f y)) = some rows ∧
        rows.map (·.map fun p => (some p.1, p.2)) = ys.map fun y => xs.map fun x =>
          (r.cell x.toNat y.toNat, decide (color = true ∧ x = x0 ∧ y = y0)) := by
    intro f xs ys h
    have inner : ∀ y ∈ ys, ∀ l : List Int, (∀ x ∈ l, x ∈ xs) → ∃ row, l.mapM (f y) = some row ∧
        (row.map fun p => (some p.1, p.2)) = l.map fun x =>
          (r.cell x.toNat y.toNat, decide (color = true ∧ x = x0 ∧ y = y0)) := by
      intro y hy l
      induction l with
      | nil => exact fun _ => ⟨[], rfl, rfl⟩
      | cons x l ih =>
        intro hl
        obtain ⟨p, h1, h2⟩ := h x (hl x (by simp)) y hy
        obtain ⟨row, h3, h4⟩ := ih fun z hz => hl z (by simp [hz])
        refine ⟨p :: row, by rw [List.mapM_cons, h1, h3]; rfl, ?_⟩
        rw [List.map_cons, List.map_cons, h2, h4]
    have outer : ∀ l : List Int, (∀ y ∈ l, y ∈ ys) → ∃ rows, (l.mapM fun y => xs.mapM (f y)) = some rows ∧
        rows.map (·.map fun p => (some p.1, p.2)) = l.map fun y => xs.map fun x =>
          (r.cell x.toNat y.toNat, decide (color = true ∧ x = x0 ∧ y = y0)) := by
      intro l
      induction l with
      | nil => exact fun _ => ⟨[], rfl, rfl⟩
      | cons y l ih =>
        intro hl
        obtain ⟨row, h1, h2⟩ := inner y (hl y (by simp)) xs fun _ hx => hx
        obtain ⟨rows, h3, h4⟩ := ih fun z hz => hl z (by simp [hz])
        refine ⟨row :: rows, by rw [List.mapM_cons, h1, h3]; rfl, ?_⟩
        rw [List.map_cons, List.map_cons, h2, h4]
    exact outer ys fun _ hy => hy
  obtain ⟨rows, h1, h2⟩ := step (fun y x => (r.cell x.toNat y.toNat).map fun v => (v, color && x == x0 && y == y0))
    (below (max 0 (x0 - radius)) (min (r.w : Int) (x0 + radius))) (below (max 0 (y0 - radius)) (min (r.h : Int) (y0 + radius))) (by
      intro x hx' y hy'
      obtain ⟨d, hd⟩ := hc x y ((mx x).1 hx').1 ((my y).1 hy').1
      refine ⟨_, by rw [hd]; rfl, ?_⟩
      rw [hd, Prod.mk.injEq]
      refine ⟨rfl, ?_⟩
      dsimp only
      rw [Bool.eq_iff_iff]
      simp [and_assoc])
  refine ⟨rows, _, _, ?_, sorted _ _, mx, sorted _ _, my, h2⟩
  unfold blockShown
  rw [hb]
  exact h1

/-- **C125, refuted (the block is centred).** A block of radius one in the middle of a raster shows the
cells to the north and west of the centre, not those to the south and east; a block of radius zero is
empty. -/
theorem C125_centred_refuted :
    let r : Raster Nat := ⟨3, 3, [0, 1, 2, 3, 4, 5, 6, 7, 8], 99, none, true, 3⟩
    blockShown r 1 1 1 true = some [[(0, false), (1, false)], [(3, false), (4, true)]] ∧
      blockShown r 0 1 1 true = some [] := by decide +kernel

/-- **C125, refuted (any radius will do).** A radius taken so large that the block surely covers the raster
is undefined behaviour, even around a cell of the raster. -/
theorem C125_radius_refuted {E : Type} (r : Raster E) (x0 y0 : Int) (hx : 0 < x0) (color : Bool) :
    blockShown r (2 ^ 31 - 1) x0 y0 color = none := by
  unfold blockShown blockRange intMax
  rw [if_neg (by omega)]
  rfl

/-- **C125, refuted (`printAllFlows`).** With a field of one character the codes are run together. -/
theorem C125_flows_refuted :
    flowsText ⟨3, 1, [1, 8, 255], 255, none, true, 3⟩ 1 = some "18?\n".toList ∧
      flowsText ⟨3, 1, [1, 8, 255], 255, none, true, 3⟩ 5 = some "    1    8    ?\n".toList := by decide +kernel

/-! ### Concrete runs -/

/-- A raster of six cells, the southernmost row first. -/
def exShow : File Int :=
  { rowsFile (-9999) [[1, -22, 333], [4, 55555, 6]] with gt := some ⟨0, 1, 0, 0, 0, 1⟩ }

/-- The hypotheses of the theorems are met. -/
example : GoodFile exShow ∧ oneFile exShow "in".toList = some exShow ∧ ("noflip".toList, false, false) ∈ directives ∧
    isMirrored exShow (false, false) = false ∧ isTurned exShow (false, false) = true ∧
    isMirrored exShow (true, false) = true ∧ "FlipH".toList ∉ directives.map Prod.fst ∧
    (∀ c ∈ allCells 3 2, ∃ i, (some (fileDem exShow c) : Option Int) = some i ∧ -100000 < i ∧ i < 1000000) := by
  refine ⟨⟨by decide, by decide, by decide, by decide, by decide⟩, by rfl, by decide, by decide +kernel, by decide +kernel,
    by decide +kernel, by decide, ?_⟩
  have : ∀ c ∈ allCells 3 2, -100000 < fileDem exShow c ∧ fileDem exShow c < 1000000 := by decide +kernel
  exact fun c hc => ⟨_, rfl, this c hc⟩

example : displayTool some (oneFile exShow) ["in".toList, "noflip".toList] =
    .ok (0, "     4  55555      6 \n     1    -22    333 \n".toList) ∧
    displayTool some (oneFile exShow) ["in".toList, "flipv".toList] =
    .ok (0, "     1    -22    333 \n     4  55555      6 \n".toList) := by decide +kernel

example : LTools.layoutDisplay "a.tif,,b.tif\n , c.tif ,\n".toList = "# #\n # \n".toList ∧
    indicesText 2 2 = "    0     1 \n    2     3 \n".toList := by decide +kernel

end Tools
end RichDEM
