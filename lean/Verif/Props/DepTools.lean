/-
Property theorems C119: the tools rd_depressions_flood, rd_depressions_has, rd_depressions_mask and
rd_depressions_breach.
-/
import Verif.Apps.DepTools
import Verif.Props.BreachLimits
import Verif.Props.FillVariants
import Verif.Props.Flood2
import Verif.Props.MaxDep
import Verif.Props.RasterTools

namespace RichDEM
namespace Tools

open Gdal

/-! ### Specification -/

/-- The cell values of a file. -/
def fileDem {E : Type} (f : File E) : Cell → E := fun c => f.band c.1 c.2

/-- Two files agree in all but the cell values, the metadata and the NoData value. -/
structure SameGrid {E F : Type} (g : File F) (f : File E) : Prop where
  width : g.width = f.width
  height : g.height = f.height
  proj : g.projection = f.projection
  gt : g.gt = some (shownGT f)

/-- The text does not go on with a digit. -/
def NoDigit (s : Str) : Prop := ∀ c, s.head? = some c → c.isDigit = false

/-! ### Numbers -/

theorem stoul_decimal (n : Nat) (hn : n < 2 ^ 64) (rest : Str) (hr : NoDigit rest) :
    stoul (Layout.decimal n ++ rest) = .ok n := by
  obtain ⟨c, l, e, hc, hall⟩ := decimal_shape n
  obtain ⟨h1, h2, h3⟩ := digit_not_special hc
  have hdrop : (Layout.decimal n ++ rest).dropWhile isSpace = Layout.decimal n ++ rest := by
    rw [e]; simp [h1]
  have hsign : signOf (Layout.decimal n ++ rest) = (false, Layout.decimal n ++ rest) := by
    rw [e, List.cons_append]
    unfold signOf
    split
    · rename_i heq; simp only [List.cons.injEq] at heq; exact absurd heq.1 h2
    · rename_i heq; simp only [List.cons.injEq] at heq; exact absurd heq.1 h3
    · rfl
  unfold stoul
  dsimp only
  rw [hdrop, hsign]
  dsimp only
  rw [leadingDigits_decimal n rest hr]
  have hne : Layout.decimal n ≠ [] := by rw [e]; simp
  have hv : Nat.ofDigitChars 10 (Layout.decimal n) 0 = n := Nat.ofDigitChars_ten_toDigits
  rw [if_neg hne, hv]
  simp only [Bool.false_eq_true, if_false]
  rw [if_neg (by omega)]

theorem stoul_negative (n : Nat) (hn : n < 2 ^ 64) (rest : Str) (hr : NoDigit rest) :
    stoul ('-' :: Layout.decimal n ++ rest) = .ok ((2 ^ 64 - n) % 2 ^ 64) := by
  obtain ⟨c, l, e, hc, hall⟩ := decimal_shape n
  have hdrop : ('-' :: Layout.decimal n ++ rest).dropWhile isSpace = '-' :: Layout.decimal n ++ rest := by
    rw [List.cons_append, List.dropWhile_cons_of_neg (by decide)]
  unfold stoul
  dsimp only
  rw [hdrop]
  show (if leadingDigits (Layout.decimal n ++ rest) = [] then Res.throws else _) = _
  have e1 : (signOf ('-' :: Layout.decimal n ++ rest)) = (true, Layout.decimal n ++ rest) := rfl
  rw [e1]
  dsimp only
  rw [leadingDigits_decimal n rest hr]
  have hne : Layout.decimal n ≠ [] := by rw [e]; simp
  have hv : Nat.ofDigitChars 10 (Layout.decimal n) 0 = n := Nat.ofDigitChars_ten_toDigits
  rw [if_neg hne, hv, if_neg (by omega)]
  rfl

/-- C119: a decimal number below 2^32 is read as it is. -/
theorem C119_number (n : Nat) (hn : n < 2 ^ 32) (rest : Str) (hr : NoDigit rest) :
    stou32 (Layout.decimal n ++ rest) = .ok n := by
  unfold stou32
  rw [stoul_decimal n (lt_trans hn (by norm_num)) rest hr]
  show Res.ok (n % 2 ^ 32) = _
  rw [Nat.mod_eq_of_lt hn]

/-- **C119, refuted (numbers too large for the parameter are rejected).** The maximum depression size
(and path length) of 2^32·k + n acts as `n`. -/
theorem C119_large_number_refuted (n k : Nat) (hn : n < 2 ^ 32) (hk : k < 2 ^ 32) :
    stou32 (Layout.decimal (2 ^ 32 * k + n)) = stou32 (Layout.decimal n) := by
  have h1 : 2 ^ 32 * k + n < 2 ^ 64 := by omega
  have := C119_number n hn [] (by simp [NoDigit])
  rw [List.append_nil] at this
  rw [this]
  have := stoul_decimal _ h1 [] (by simp [NoDigit])
  rw [List.append_nil] at this
  unfold stou32
  rw [this]
  show Res.ok ((2 ^ 32 * k + n) % 2 ^ 32) = _
  rw [Nat.mul_add_mod, Nat.mod_eq_of_lt hn]

/-- **C119, refuted (negative numbers are rejected).** They wrap around. -/
theorem C119_negative_number_refuted (n : Nat) (h0 : 0 < n) (hn : n ≤ 2 ^ 32) :
    stou32 ('-' :: Layout.decimal n) = .ok (2 ^ 32 - n) := by
  have := stoul_negative n (lt_of_le_of_lt hn (by norm_num)) [] (by simp [NoDigit])
  rw [List.append_nil] at this
  unfold stou32
  rw [this]
  show Res.ok ((2 ^ 64 - n) % 2 ^ 64 % 2 ^ 32) = _
  congr 1
  omega

/-- **C119, refuted (the whole text is read).** What follows the digits is dropped: a fraction or an
exponent has no effect. -/
theorem C119_rest_refuted :
    stou32 "1e6".toList = .ok 1 ∧ stou32 "2.9".toList = .ok 2 ∧ stou32 "-1".toList = .ok 4294967295 ∧
      stou32 "4294967297".toList = .ok 1 ∧ stou32 "18446744073709551616".toList = .throws ∧
      stou32 "all".toList = .throws := by decide +kernel

/-! ### Loading and saving -/

theorem withFile_good {E α : Type} {files : Str → Option (File E)} {name : Str} {f : File E}
    (hf : files name = some f) (gf : GoodFile f) (k : Arr E → Res α) :
    withFile files name k = k (ofFile f) := by
  unfold withFile
  rw [hf]
  dsimp only
  rw [loadWhole_good gf]
  rfl

theorem grid_pos {E : Type} {f : File E} (gf : GoodFile f) : 0 < f.width.toNat ∧ 0 < f.height.toNat := by
  have := gf.wpos; have := gf.hpos; omega

/-! ### The flood tool -/

theorem floodTool_eq {E : Type} [LinearOrder E] (pq : PQ (E × Cell) zLt) (z0 : E) {files : Str → Option (File E)}
    {inp out size time prog op : Str} {f : File E} (hf : files inp = some f) (gf : GoodFile f) {n : Nat}
    (hn : stou32 size = .ok n) :
    ∃ g, floodTool pq z0 files [inp, out, size] time prog op = .ok ⟨0, some g⟩ ∧ SameGrid g f ∧
      g.noData = f.noData ∧
      fileDem g = floodRaster pq z0 n f.width.toNat f.height.toNat (fileDem f) := by
  unfold floodTool
  dsimp only
  rw [hn]
  simp only [andThen]
  rw [withFile_good hf gf]
  obtain ⟨g, hg, g1, g2, g3, g4, g5, g6⟩ := saveWhole_ok (floodArr pq z0 n (ofFile f)) (shownGT f)
    (geotransform_eq f) time prog op
  exact ⟨g, hg, ⟨g1, g2, g5, g4⟩, g6, by unfold fileDem; rw [g3]; rfl⟩

/-- **C119 (rd_depressions_flood).** With size 0, or a size of at least the number of cells, the file
written holds the depression-filled raster; the header is that of the input. -/
theorem C119_flood_all {E : Type} [LinearOrder E] (pq : PQ (E × Cell) zLt) (z0 : E) (files : Str → Option (File E))
    (inp out time prog op : Str) (f : File E) (hf : files inp = some f) (gf : GoodFile f) (n : Nat)
    (hn : n < 2 ^ 32) (hall : n = 0 ∨ f.width.toNat * f.height.toNat ≤ n) :
    ∃ g, floodTool pq z0 files [inp, out, Layout.decimal n] time prog op = .ok ⟨0, some g⟩ ∧ SameGrid g f ∧
      g.noData = f.noData ∧ IsFilled f.width.toNat f.height.toNat .D8 (fileDem f) (fileDem g) := by
  have hnum := C119_number n hn [] (by simp [NoDigit])
  rw [List.append_nil] at hnum
  obtain ⟨g, h1, h2, h3, h4⟩ := floodTool_eq pq z0 (out := out) (time := time) (prog := prog) (op := op) hf gf hnum
  refine ⟨g, h1, h2, h3, ?_⟩
  rw [h4]
  obtain ⟨hw, hh⟩ := grid_pos gf
  unfold floodRaster
  by_cases h0 : n = 0
  · rw [if_pos h0]
    exact (C15_zhou_is_fill pq _ _ _ hw hh).2
  · rw [if_neg h0]
    exact C14_unlimited_is_fill pq _ _ .D8 n z0 _ hw hh (hall.resolve_left h0)

/-- **C119 (rd_depressions_flood), what holds of "Depressions larger than this are not flooded".**
Every cell keeps its elevation or gets its water level, and a cell that is raised lies in a
depression of at most `n` cells, all of which are raised to their level.  Missing: that every
depression of at most `n` cells is flooded, refuted below. -/
theorem C119_flood_limited_partial {E : Type} [LinearOrder E] (pq : PQ (E × Cell) zLt) (z0 : E)
    (files : Str → Option (File E)) (inp out time prog op : Str) (f : File E) (hf : files inp = some f)
    (gf : GoodFile f) (n : Nat) (h0 : 0 < n) (hn : n < 2 ^ 32) (F : Cell → E)
    (hF : IsFilled f.width.toNat f.height.toNat .D8 (fileDem f) F) :
    ∃ g, floodTool pq z0 files [inp, out, Layout.decimal n] time prog op = .ok ⟨0, some g⟩ ∧ SameGrid g f ∧
      g.noData = f.noData ∧ ∀ c, InGrid f.width.toNat f.height.toNat c →
        (fileDem g c = fileDem f c ∨ fileDem g c = F c) ∧
        (fileDem g c ≠ fileDem f c →
          (∀ b, SameDep f.width.toNat f.height.toNat .D8 (fileDem f) F c b → fileDem g b = F b) ∧
          ∀ K : List Cell, K.Nodup → (∀ b ∈ K, SameDep f.width.toNat f.height.toNat .D8 (fileDem f) F c b) →
            K.length ≤ n) := by
  have hnum := C119_number n hn [] (by simp [NoDigit])
  rw [List.append_nil] at hnum
  obtain ⟨g, h1, h2, h3, h4⟩ := floodTool_eq pq z0 (out := out) (time := time) (prog := prog) (op := op) hf gf hnum
  refine ⟨g, h1, h2, h3, ?_⟩
  intro c hc
  rw [h4]
  obtain ⟨hw, hh⟩ := grid_pos gf
  unfold floodRaster
  rw [if_neg (by omega)]
  exact C14_large_untouched_partial pq _ _ .D8 n z0 _ F hF hw hh c hc

/-- The wrong number of arguments, a size without digits or an input that is not there: nothing is
written. -/
theorem C119_flood_usage {E : Type} [LinearOrder E] (pq : PQ (E × Cell) zLt) (z0 : E) (files : Str → Option (File E))
    (rest : List Str) (time prog op : Str) :
    (rest.length ≠ 3 → floodTool pq z0 files rest time prog op = .ok ⟨-1, none⟩) ∧
    (∀ inp out size, rest = [inp, out, size] → stou32 size = .throws →
      floodTool pq z0 files rest time prog op = .throws) ∧
    (∀ inp out n, rest = [inp, out, Layout.decimal n] → n < 2 ^ 32 → files inp = none →
      floodTool pq z0 files rest time prog op = .throws) := by
  refine ⟨?_, ?_, ?_⟩
  · intro hl
    match rest, hl with
    | [], _ => rfl
    | [_], _ => rfl
    | [_, _], _ => rfl
    | [_, _, _], h => exact absurd rfl h
    | _ :: _ :: _ :: _ :: _, _ => rfl
  · rintro inp out size rfl hs
    unfold floodTool
    dsimp only
    rw [hs]
    rfl
  · rintro inp out n rfl hn hf
    have hnum := C119_number n hn [] (by simp [NoDigit])
    rw [List.append_nil] at hnum
    unfold floodTool withFile
    dsimp only
    rw [hnum, hf]
    rfl

/-! ### The tools agree -/

/-- **C119 (rd_depressions_has).** "No depressions found" is printed exactly if every cell has a
path to the edge of the raster that never ascends. -/
theorem C119_has {E : Type} [LinearOrder E] (pq : PQ (E × Cell) zLt) (files : Str → Option (File E)) (inp : Str)
    (f : File E) (hf : files inp = some f) (gf : GoodFile f) :
    ∃ b, hasTool pq files [inp] = .ok (0, some b) ∧
      (b = false ↔ Drained f.width.toNat f.height.toNat .D8 (fileDem f)) := by
  obtain ⟨hw, hh⟩ := grid_pos gf
  unfold hasTool
  dsimp only
  rw [withFile_good hf gf]
  exact ⟨_, rfl, C07_hasDepressions_iff pq _ _ .D8 (fileDem f) hw hh⟩

/-- **C119 (the tools agree).** `rd_depressions_has` reports depressions exactly if
`rd_depressions_flood` with size 0 changes a cell. -/
theorem C119_has_flood {E : Type} [LinearOrder E] (pq pq' : PQ (E × Cell) zLt) (z0 : E) (files : Str → Option (File E))
    (inp out time prog op : Str) (f : File E) (hf : files inp = some f) (gf : GoodFile f) :
    ∃ b g, hasTool pq files [inp] = .ok (0, some b) ∧
      floodTool pq' z0 files [inp, out, ['0']] time prog op = .ok ⟨0, some g⟩ ∧
      (b = true ↔ ∃ c, InGrid f.width.toNat f.height.toNat c ∧ fileDem g c ≠ fileDem f c) := by
  obtain ⟨hw, hh⟩ := grid_pos gf
  obtain ⟨g, h1, _, _, h4⟩ := C119_flood_all pq' z0 files inp out time prog op f hf gf 0 (by norm_num) (Or.inl rfl)
  refine ⟨hasDepressions pq f.width.toNat f.height.toNat .D8 (fileDem f), g, ?_, h1, ?_⟩
  · unfold hasTool
    dsimp only
    rw [withFile_good hf gf]
    rfl
  · rw [C07_hasDepressions_iff_changes pq pq' _ _ .D8 (fileDem f) hw hh]
    have hb := C05_barnes_is_fill pq' _ _ .D8 (fileDem f) hw hh
    constructor <;> rintro ⟨c, hc, hne⟩ <;> refine ⟨c, hc, ?_⟩
    · rw [C04_fill_unique _ _ .D8 _ _ _ h4 hb c hc]; exact hne
    · rw [← C04_fill_unique _ _ .D8 _ _ _ h4 hb c hc]; exact hne

/-- **C119 (rd_depressions_mask).** A cell of the mask is 3 on NoData, else 1 or 0 as
`rd_depressions_flood` with size 0 raises the cell or not; its NoData value is 3. -/
theorem C119_mask {E : Type} [LinearOrder E] (pq pq' : PQ (E × Cell) zLt) (z0 : E) (files : Str → Option (File E))
    (inp out out' time prog op time' prog' op' : Str) (f : File E) (hf : files inp = some f) (gf : GoodFile f) :
    ∃ m g, maskTool pq files [inp, out] time prog op = .ok ⟨0, some m⟩ ∧
      floodTool pq' z0 files [inp, out', ['0']] time' prog' op' = .ok ⟨0, some g⟩ ∧ SameGrid m f ∧ m.noData = 3 ∧
      ∀ c, InGrid f.width.toNat f.height.toNat c →
        fileDem m c = if fileDem f c = f.noData then 3 else if fileDem f c < fileDem g c then 1 else 0 := by
  obtain ⟨hw, hh⟩ := grid_pos gf
  obtain ⟨g, h1, _, _, h4⟩ := C119_flood_all pq' z0 files inp out' time' prog' op' f hf gf 0 (by norm_num) (Or.inl rfl)
  obtain ⟨m, hm, m1, m2, m3, m4, m5, m6⟩ := saveWhole_ok (maskArr pq (ofFile f)) (shownGT f) (geotransform_eq f) time prog op
  refine ⟨m, g, ?_, h1, ⟨m1, m2, m5, m4⟩, m6, ?_⟩
  · unfold maskTool
    dsimp only
    rw [withFile_good hf gf]
    exact hm
  · intro c hc
    have : fileDem m c = (pitMask pq f.width.toNat f.height.toNat .D8 f.noData (fileDem f)).mask c := by
      unfold fileDem; rw [m3]; rfl
    rw [this]
    exact C13_pit_mask pq _ _ .D8 f.noData (fileDem f) (fileDem g) h4 hw hh c hc

/-! ### The breaching tool -/

theorem breachTool_eq {E : Type} [LinearOrder E] [Sub E] (pq : PQ (E × Cell) zLt) (N : NumType E) {stod : Str → Res ℚ}
    {files : Str → Option (File E)} {inp out m e fl len depth time prog op : Str} {f : File E} (hf : files inp = some f)
    (gf : GoodFile f) {mode : Mode} {eps fill : Bool} {n : Nat} {q : ℚ} {d : E} (h1 : parseMode m = .ok mode)
    (h2 : parseFlag "EPS".toList "NOEPS".toList e = .ok eps) (h3 : parseFlag "FILL".toList "NOFILL".toList fl = .ok fill)
    (h4 : stou32 len = .ok n) (h5 : stod depth = .ok q) (h6 : N.cast q = .ok d) :
    ∃ g, breachTool pq N stod files [inp, out, m, e, fl, len, depth] time prog op = .ok ⟨0, some g⟩ ∧ SameGrid g f ∧
      g.noData = f.noData ∧
      fileDem g = lindsay pq N f.width.toNat f.height.toNat f.noData mode eps fill n d (fileDem f) := by
  unfold breachTool breachArr
  dsimp only
  rw [h1, h2, h3, h4, h5]
  simp only [andThen]
  rw [withFile_good hf gf, h6]
  obtain ⟨g, hg, g1, g2, g3, g4, g5, g6⟩ := saveWhole_ok (withCells (ofFile f) (lindsay pq N f.width.toNat f.height.toNat
    f.noData mode eps fill n d (fileDem f))) (shownGT f) (geotransform_eq f) time prog op
  exact ⟨g, hg, ⟨g1, g2, g5, g4⟩, g6, by unfold fileDem; rw [g3]; rfl⟩

/-- **C119 (rd_depressions_breach, COMPLETE, NOEPS).** From every data cell of the file written a
path of data cells that never ascends leads to the edge of the raster or to NoData. -/
theorem C119_breach_complete {E : Type} [LinearOrder E] [Sub E] (pq : PQ (E × Cell) zLt) (N : NumType E)
    (stod : Str → Res ℚ) (files : Str → Option (File E)) (inp out fl len depth time prog op : Str) (f : File E)
    (hf : files inp = some f) (gf : GoodFile f) (htop : ∀ c, InGrid f.width.toNat f.height.toNat c → fileDem f c ≤ N.top)
    (hfl : fl = "FILL".toList ∨ fl = "NOFILL".toList) (n : Nat) (hlen : stou32 len = .ok n) (q : ℚ) (d : E)
    (hdep : stod depth = .ok q) (hd : N.cast q = .ok d) :
    ∃ g, breachTool pq N stod files [inp, out, "COMPLETE".toList, "NOEPS".toList, fl, len, depth] time prog op =
        .ok ⟨0, some g⟩ ∧ SameGrid g f ∧ g.noData = f.noData ∧
      ∀ c, InGrid f.width.toNat f.height.toNat c → fileDem f c ≠ f.noData →
        ∃ p, DataPath f.width.toNat f.height.toNat .D8 (fileDem f) f.noData c p ∧
          p.IsChain fun a b => fileDem g b ≤ fileDem g a := by
  obtain ⟨fill, h3⟩ : ∃ fill, parseFlag "FILL".toList "NOFILL".toList fl = .ok fill := by
    rcases hfl with rfl | rfl
    · exact ⟨true, by decide⟩
    · exact ⟨false, by decide⟩
  have h1 : parseMode "COMPLETE".toList = .ok .complete := by decide
  have h2 : parseFlag "EPS".toList "NOEPS".toList "NOEPS".toList = .ok false := by decide
  obtain ⟨g, g1, g2, g3, g4⟩ := breachTool_eq pq N (out := out) (time := time) (prog := prog) (op := op) hf gf
    h1 h2 h3 hlen hdep hd
  refine ⟨g, g1, g2, g3, ?_⟩
  rw [g4]
  exact (C46_drained pq .D8 _ _ f.noData N.top (fileDem f) htop).2

/-- **C119 (COMPLETE).** The flag for filling and the limits have no influence. -/
theorem C119_breach_complete_ignores {E : Type} [LinearOrder E] [Sub E] (pq : PQ (E × Cell) zLt) (N : NumType E)
    (w h : Nat) (nd : E) (eps fill fill' : Bool) (n n' : Nat) (d d' : E) (dem : Cell → E) :
    lindsay pq N w h nd .complete eps fill n d dem = lindsay pq N w h nd .complete eps fill' n' d' dem := rfl

/-- **C119 (SELECTIVE and CONSTRAINED).** Limits that exclude nothing give the result of COMPLETE. -/
theorem C119_breach_unlimited {E : Type} [LinearOrder E] [AddCommGroup E] [IsOrderedAddMonoid E]
    (pq : PQ (E × Cell) zLt) (N : NumType E) (w h : Nat) (nd : E) (mode : Mode) (fill : Bool) (n : Nat) (d : E)
    (dem : Cell → E) (hbot : N.bot ≤ 0) (hlen : w * h ≤ n)
    (hdepth : ∀ a b, InGrid w h a → InGrid w h b → dem a ≠ nd → dem b ≠ nd → dem a - dem b ≤ d)
    (htop : ∀ c, InGrid w h c → dem c ≤ N.top) :
    lindsay pq N w h nd mode false false n d dem = lindsay pq N w h nd .complete false fill n d dem := by
  cases mode with
  | complete => rfl
  | selective =>
    exact congrArg LS.dem (C93_unlimited pq w h nd N.top N.bot id dem false n d hbot hlen hdepth htop)
  | constrained =>
    exact congrArg LS.dem (C93_unlimited pq w h nd N.top N.bot id dem true n d hbot hlen hdepth htop)

/-- **C119 (bad options).** An unknown mode or flag ends the program and nothing is written; the
options are case sensitive. -/
theorem C119_breach_options {E : Type} [LinearOrder E] [Sub E] (pq : PQ (E × Cell) zLt) (N : NumType E)
    (stod : Str → Res ℚ) (files : Str → Option (File E)) (inp out m e fl len depth time prog op : Str)
    (hbad : m ∉ ["COMPLETE".toList, "SELECTIVE".toList, "CONSTRAINED".toList] ∨
      e ∉ ["EPS".toList, "NOEPS".toList] ∨ fl ∉ ["FILL".toList, "NOFILL".toList]) :
    breachTool pq N stod files [inp, out, m, e, fl, len, depth] time prog op = .throws := by
  have hm : parseMode m = .throws ∨ ∃ x, parseMode m = .ok x := by
    unfold parseMode; split_ifs <;> simp
  have he : parseFlag "EPS".toList "NOEPS".toList e = .throws ∨ ∃ x, parseFlag "EPS".toList "NOEPS".toList e = .ok x := by
    unfold parseFlag; split_ifs <;> simp
  have hfl : parseFlag "FILL".toList "NOFILL".toList fl = .throws ∨
      ∃ x, parseFlag "FILL".toList "NOFILL".toList fl = .ok x := by
    unfold parseFlag; split_ifs <;> simp
  unfold breachTool
  dsimp only
  rcases hm with hm | ⟨x, hm⟩
  · rw [hm]; rfl
  rcases he with he | ⟨y, he⟩
  · rw [hm, he]; rfl
  rcases hfl with hfl | ⟨z, hfl⟩
  · rw [hm, he, hfl]; rfl
  exfalso
  rcases hbad with hb | hb | hb
  · unfold parseMode at hm
    simp only [List.mem_cons, List.not_mem_nil, or_false, not_or] at hb
    rw [if_neg hb.1, if_neg hb.2.1, if_neg hb.2.2] at hm
    cases hm
  · unfold parseFlag at he
    simp only [List.mem_cons, List.not_mem_nil, or_false, not_or] at hb
    rw [if_neg hb.1, if_neg hb.2] at he
    cases he
  · unfold parseFlag at hfl
    simp only [List.mem_cons, List.not_mem_nil, or_false, not_or] at hb
    rw [if_neg hb.1, if_neg hb.2] at hfl
    cases hfl

/-! ### Integer rasters -/

/-- A depth limit that is not negative may be rounded down: a path of integer depth keeps to the
limit exactly if it keeps to the converted one. -/
theorem C119_depth_int (t : IType) (q : ℚ) (hq : 0 ≤ q) (d : Int) (hd : castInt t q = .ok d) (x : Int) :
    (x : ℚ) ≤ q ↔ x ≤ d := by
  have hfl : d = ⌊q⌋ := by
    unfold castInt at hd
    rw [if_pos hq] at hd
    cases t <;> dsimp only at hd <;> split_ifs at hd <;> (injection hd with hd; exact hd.symm)
  rw [hfl]
  exact Int.le_floor.symm

/-- The tools reads the depths that fit the cell type. -/
theorem C119_depth_fits (t : IType) (q : ℚ) (hq : 0 ≤ q) (ht : q ≤ (topOf t : ℚ)) : ∃ d, castInt t q = .ok d := by
  have h1 : 0 ≤ ⌊q⌋ := Int.floor_nonneg.2 hq
  have h2 : ⌊q⌋ ≤ topOf t := by
    have : ((⌊q⌋ : Int) : ℚ) ≤ (topOf t : ℚ) := (Int.floor_le q).trans ht
    exact_mod_cast this
  unfold castInt
  rw [if_pos hq]
  cases t <;> dsimp only [topOf] at h2 ⊢ <;> exact ⟨_, if_pos (by omega)⟩

/-- **C119, refuted (rounding a depth limit changes nothing).** A negative limit between -1 and 0
becomes 0: a path on the level keeps to it, though its depth 0 is above the limit. More generally
negative limits are raised to the next integer. -/
theorem C119_negative_depth_refuted :
    (∀ (t : IType) (q : ℚ), -1 < q → q < 0 → castInt t q = .ok 0 ∧ ¬ (((0 : Int) : ℚ) ≤ q)) ∧
    (∀ (t : IType) (q : ℚ) (d : Int), q < 0 → castInt t q = .ok d → q ≤ d ∧ (d : ℚ) < q + 1) := by
  constructor
  · intro t q h1 h2
    have hc : ⌈q⌉ = 0 := by
      rw [Int.ceil_eq_iff]; push_cast; constructor <;> linarith
    refine ⟨?_, by push_cast; linarith⟩
    unfold castInt
    rw [if_neg (by linarith), hc]
    cases t <;> simp
  · intro t q d h1 hd
    have hc : d = ⌈q⌉ := by
      unfold castInt at hd
      rw [if_neg (by linarith)] at hd
      cases t <;> dsimp only at hd <;> split_ifs at hd <;> (injection hd with hd; exact hd.symm)
    rw [hc]
    exact ⟨Int.le_ceil q, Int.ceil_lt_add_one q⟩

/-- **C119, refuted ("Max Depth - Float [0, Inf)").** A depth limit above the largest number of the
cell type is undefined behaviour: there is no way to say "no limit" for integer rasters but to know
their type. -/
theorem C119_depth_refuted (pq : PQ (Int × Cell) zLt) (t : IType) (stod : Str → Res ℚ) (files : Str → Option (File Int))
    (inp out len depth time prog op : Str) (f : File Int) (hf : files inp = some f) (gf : GoodFile f) (n : Nat)
    (hlen : stou32 len = .ok n) (q : ℚ) (hdep : stod depth = .ok q) (hq : (topOf t : ℚ) + 1 ≤ q) :
    breachTool pq (intType t) stod files [inp, out, "SELECTIVE".toList, "NOEPS".toList, "NOFILL".toList, len, depth]
      time prog op = .ub := by
  have h0 : (0 : ℚ) ≤ q := le_trans (by cases t <;> norm_num [topOf]) hq
  have h1 : topOf t + 1 ≤ ⌊q⌋ := by
    rw [Int.le_floor]; push_cast; exact hq
  have hub : (intType t).cast q = .ub := by
    show castInt t q = .ub
    unfold castInt
    rw [if_pos h0]
    cases t <;> dsimp only [topOf] at h1 ⊢ <;> exact if_neg (by omega)
  have e1 : parseMode "SELECTIVE".toList = .ok .selective := by decide
  have e2 : parseFlag "EPS".toList "NOEPS".toList "NOEPS".toList = .ok false := by decide
  have e3 : parseFlag "FILL".toList "NOFILL".toList "NOFILL".toList = .ok false := by decide
  unfold breachTool breachArr
  dsimp only
  rw [e1, e2, e3, hlen, hdep]
  simp only [andThen]
  rw [withFile_good hf gf, hub]

/-- What the step to the next number does to integers: it is the conversion of a number just below
or just above. -/
theorem C119_next_int (x : Int) (q : ℚ) :
    ((x : ℚ) - 1 < q → q < x → (if 0 ≤ q then ⌊q⌋ else ⌈q⌉) = nextDownInt x) ∧
    ((x : ℚ) < q → q < x + 1 → (if 0 ≤ q then ⌊q⌋ else ⌈q⌉) = nextUpInt x) := by
  constructor
  · intro h1 h2
    have hf : ⌊q⌋ = x - 1 := by rw [Int.floor_eq_iff]; push_cast; constructor <;> linarith
    have hc : ⌈q⌉ = x := by rw [Int.ceil_eq_iff]; constructor <;> linarith
    rw [hf, hc]
    unfold nextDownInt
    by_cases hx : 0 < x
    · rw [if_pos hx, if_pos]
      have : (1 : ℚ) ≤ x := by exact_mod_cast hx
      linarith
    · rw [if_neg hx, if_neg]
      have : (x : ℚ) ≤ 0 := by exact_mod_cast not_lt.1 hx
      linarith
  · intro h1 h2
    have hf : ⌊q⌋ = x := by rw [Int.floor_eq_iff]; constructor <;> linarith
    have hc : ⌈q⌉ = x + 1 := by rw [Int.ceil_eq_iff]; push_cast; constructor <;> linarith
    rw [hf, hc]
    unfold nextUpInt
    by_cases hx : x < 0
    · rw [if_pos hx, if_neg]
      have : (x : ℚ) + 1 ≤ 0 := by exact_mod_cast hx
      linarith
    · rw [if_neg hx, if_pos]
      have : (0 : ℚ) ≤ x := by exact_mod_cast not_lt.1 hx
      linarith

/-- **C119 (COMPLETE, EPS, integer rasters with a negative NoData value below all data).** Data cells
drain as with NOEPS. -/
theorem C119_breach_eps_int (pq : PQ (Int × Cell) zLt) (t : IType) (w h : Nat) (nd : Int) (fill : Bool) (n : Nat) (d : Int)
    (dem : Cell → Int) (htop : ∀ c, InGrid w h c → dem c ≤ topOf t) (hneg : nd < 0)
    (hnd : ∀ c, InGrid w h c → dem c ≠ nd → nd < dem c) (c : Cell) (hc : InGrid w h c) (hdc : dem c ≠ nd) :
    ∃ p, DataPath w h .D8 dem nd c p ∧
      p.IsChain fun a b => lindsay pq (intType t) w h nd .complete true fill n d dem b ≤
        lindsay pq (intType t) w h nd .complete true fill n d dem a := by
  refine (C46_eps_drained pq .D8 w h nd (topOf t) nextDownInt dem ?_ ?_ (fun x => nd < x) ?_ hnd htop).2 c hc hdc
  · intro x; unfold nextDownInt; split_ifs <;> omega
  · intro x y hxy; unfold nextDownInt; split_ifs <;> omega
  · intro x hx
    refine ⟨?_, by omega⟩
    unfold nextDownInt; split_ifs <;> omega

/-! ### Concrete rasters -/

/-- A file with integer cells. -/
def rowsFile (nd : Int) (rows : List (List Int)) : File Int :=
  { width := (rows.headD []).length
    height := rows.length
    band := fun x y => ofRows 0 rows (x, y)
    gt := none
    projection := []
    noData := nd
    mdata := none }

/-- The cells of the file a tool has written. -/
def writtenRows {E : Type} (r : Res (Exit E)) : Option (List (List E)) :=
  match r with
  | .ok ⟨_, some g⟩ => some (toRows g.width.toNat g.height.toNat (fileDem g))
  | _ => none

/-- A folder with one file. -/
def oneFile (f : File Int) : Str → Option (File Int) := fun s => if s = "in".toList then some f else none

def runFlood (f : File Int) (size : String) : Option (List (List Int)) :=
  writtenRows (floodTool zPQ 0 (oneFile f) ["in".toList, "out".toList, size.toList] [] [] [])

def runMask (f : File Int) : Option (List (List Nat)) :=
  writtenRows (maskTool zPQ (oneFile f) ["in".toList, "out".toList] [] [] [])

/-- `std::stod` on some texts. -/
def fewDoubles (s : Str) : Res ℚ :=
  if s = "0".toList then .ok 0 else if s = "0.5".toList then .ok (1 / 2) else if s = "300".toList then .ok 300 else .throws

def runBreach (t : IType) (f : File Int) (mode eps fill len depth : String) : Option (List (List Int)) :=
  writtenRows (breachTool zPQ (intType t) fewDoubles (oneFile f)
    ["in".toList, "out".toList, mode.toList, eps.toList, fill.toList, len.toList, depth.toList] [] [] [])

/-- A depression of one cell and one of two. -/
def exPits : File Int := rowsFile (-1) [[9, 9, 9, 9, 9, 9], [9, 3, 9, 4, 4, 9], [9, 9, 9, 9, 9, 9]]

/-- The hypotheses of C119_flood_all, C119_has and C119_mask are met by `exPits`, whose cells change. -/
example : GoodFile exPits ∧ oneFile exPits "in".toList = some exPits ∧
    runFlood exPits "0" = some [[9, 9, 9, 9, 9, 9], [9, 9, 9, 9, 9, 9], [9, 9, 9, 9, 9, 9]] ∧
    runFlood exPits "18" = some [[9, 9, 9, 9, 9, 9], [9, 9, 9, 9, 9, 9], [9, 9, 9, 9, 9, 9]] ∧
    runMask exPits = some [[0, 0, 0, 0, 0, 0], [0, 1, 0, 1, 1, 0], [0, 0, 0, 0, 0, 0]] ∧
    (match hasTool zPQ (oneFile exPits) ["in".toList] with | .ok (0, some true) => true | _ => false) = true := by
  refine ⟨⟨by decide, by decide, by decide, by decide, by decide⟩, by rfl, ?_⟩
  decide +kernel

/-- The hypotheses of C119_breach_complete are met, and cells change. -/
example : (∀ c ∈ allCells 6 3, fileDem exPits c ≤ topOf .i16) ∧ stou32 "0".toList = .ok 0 ∧
    (match castInt .i16 0 with | .ok 0 => true | _ => false) = true ∧
    runBreach .i16 exPits "COMPLETE" "NOEPS" "NOFILL" "0" "0" =
      some [[9, 9, 4, 9, 9, 9], [9, 9, 9, 4, 4, 9], [9, 9, 9, 9, 9, 9]] := by
  decide +kernel

/-- **C119, refuted (every depression of at most that size is flooded).** Two depressions of one cell
that share a spill cell stay with a limit of 1. -/
theorem C119_small_refuted :
    runFlood (rowsFile (-1) [[5, 5, 4, 5, 5], [5, 0, 5, 0, 5], [5, 5, 5, 5, 5]]) "1" =
      some [[5, 5, 4, 5, 5], [5, 0, 5, 0, 5], [5, 5, 5, 5, 5]] ∧
    runFlood (rowsFile (-1) [[5, 5, 4, 5, 5], [5, 0, 5, 0, 5], [5, 5, 5, 5, 5]]) "0" =
      some [[5, 5, 4, 5, 5], [5, 4, 5, 4, 5], [5, 5, 5, 5, 5]] := by decide +kernel

/-- **C119, refuted.** With the limits 4294967297 and 1e6 the depression of two cells is left. -/
theorem C119_limit_text_refuted :
    runFlood exPits "4294967297" = runFlood exPits "1" ∧ runFlood exPits "1e6" = runFlood exPits "1" ∧
    runFlood exPits "1" = some [[9, 9, 9, 9, 9, 9], [9, 9, 9, 4, 4, 9], [9, 9, 9, 9, 9, 9]] ∧
    runFlood exPits "2" = some [[9, 9, 9, 9, 9, 9], [9, 9, 9, 9, 9, 9], [9, 9, 9, 9, 9, 9]] := by decide +kernel

/-- **C119, refuted (NoData cells are kept).** A hole of NoData in the raster, -9999 here, is treated
as terrain of that height: it is reported as a depression and filled with data. -/
theorem C119_noData_refuted :
    runFlood (rowsFile (-9999) [[5, 5, 5], [5, -9999, 5], [5, 5, 5]]) "0" = some [[5, 5, 5], [5, 5, 5], [5, 5, 5]] ∧
    runMask (rowsFile (-9999) [[5, 5, 5], [5, -9999, 5], [5, 5, 5]]) = some [[0, 0, 0], [0, 3, 0], [0, 0, 0]] ∧
    (match hasTool zPQ (oneFile (rowsFile (-9999) [[5, 5, 5], [5, -9999, 5], [5, 5, 5]])) ["in".toList] with
      | .ok (0, some true) => true | _ => false) = true := by decide +kernel

/-- **C119, refuted (EPS gives gradients).** On an integer raster the next number below 0 is 0: the
breached cell has no lower neighbour; on the same terrain ten units higher it has. -/
theorem C119_eps_int_refuted :
    runBreach .i16 (rowsFile (-9999) [[0, 0, 0], [0, -5, 0], [0, 0, 0]]) "COMPLETE" "EPS" "NOFILL" "0" "0" =
      some [[0, 0, 0], [0, 0, 0], [0, 0, 0]] ∧
    runBreach .i16 (rowsFile (-9999) [[10, 10, 10], [10, 5, 10], [10, 10, 10]]) "COMPLETE" "EPS" "NOFILL" "0" "0" =
      some [[8, 10, 10], [10, 9, 10], [10, 10, 10]] := by decide +kernel

/-- **C119, refuted (data cells stay data).** With NoData 0 in a raster of bytes, EPS digs to 0. -/
theorem C119_eps_noData_refuted :
    runBreach .u8 (rowsFile 0 [[1, 1, 1], [1, 1, 1], [1, 1, 1]]) "COMPLETE" "EPS" "NOFILL" "0" "0" =
      some [[0, 1, 1], [1, 1, 1], [1, 1, 1]] := by decide +kernel

/-- The hypotheses of C119_depth_refuted: a limit of 300 and a raster of bytes. -/
example : (match fewDoubles "300".toList with | .ok q => decide (q = 300) | _ => false) = true ∧ ((topOf .u8 : Int) : ℚ) + 1 ≤ 300 ∧
    runBreach .u8 exPits "SELECTIVE" "NOEPS" "NOFILL" "9" "300" = none ∧
    runBreach .i16 exPits "SELECTIVE" "NOEPS" "NOFILL" "9" "300" =
      runBreach .i16 exPits "COMPLETE" "NOEPS" "NOFILL" "0" "0" ∧
    runBreach .i16 exPits "SELECTIVE" "NOEPS" "NOFILL" "9" "0.5" =
      runBreach .i16 exPits "SELECTIVE" "NOEPS" "NOFILL" "9" "0" := by
  refine ⟨by decide +kernel, by norm_num [topOf], ?_⟩
  decide +kernel

end Tools
end RichDEM
