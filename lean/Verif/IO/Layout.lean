import Mathlib.Data.List.Basic
import Mathlib.Data.List.Induction

/-!
Model of include/richdem/common/Layoutfile.hpp (POSIX path separators).  Strings and file
contents are lists of characters.
-/

namespace RichDEM.Layout

abbrev Str := List Char

/-- `std::string::find_last_of` for one character; `none` is `npos`. -/
def findLast (c : Char) : Str → Option Nat
  | [] => none
  | x :: xs => match findLast c xs with
    | some i => some (i + 1)
    | none => if x = c then some 0 else none

/-- Layoutfile.hpp:43-51 (`trimStr`): drops leading and trailing spaces. -/
def trimStr (s : Str) : Str :=
  ((s.dropWhile (· = ' ')).reverse.dropWhile (· = ' ')).reverse

/-- Layoutfile.hpp:55-63 (`GetBaseName`).  `replace(pos, npos, "")` keeps the first `pos`
characters, `replace(0, n, "")` drops at most the first `n`. -/
def getBaseName (filename : Str) : Str :=
  let lastSlash := findLast '/' filename
  let lastPeriod := findLast '.' filename
  let f := match lastPeriod with
    | some p => filename.take p
    | none => filename
  match lastSlash with
  | some i => f.drop (i + 1)
  | none => f

/-- Layoutfile.hpp:232-245: the name of the file a `LayoutfileWriter` opens. -/
def writerFile (layoutFilename : Str) : Str :=
  match findLast '.' layoutFilename with
  | some p => layoutFilename.take (p + 1) ++ "layout".toList
  | none => layoutFilename

/-- Layoutfile.hpp:90-93, 237-240: the path part kept by reader and writer. -/
def pathOf (s : Str) : Str :=
  match findLast '/' s with
  | some i => s.take (i + 1)
  | none => []

/-! ### Writer -/

/-- Layoutfile.hpp:223-228: the writer's state; `out` is the file's content so far.
The counters are C++ `int`s, modelled without overflow. -/
structure Writer where
  gridx : Nat
  gridy : Nat
  out : Str

/-- Layoutfile.hpp:232-245. -/
def Writer.open : Writer := ⟨0, 0, []⟩

/-- Layoutfile.hpp:252-258 (`addRow`). -/
def Writer.addRow (w : Writer) : Writer :=
  if w.gridx = 0 ∧ w.gridy = 0 then w
  else ⟨0, w.gridy + 1, w.out ++ ['\n']⟩

/-- Layoutfile.hpp:263-266: the path is removed from an entry. -/
def stripPath (s : Str) : Str :=
  match findLast '/' s with
  | some i => s.drop (i + 1)
  | none => s

/-- Layoutfile.hpp:262-272 (`addEntry`). -/
def Writer.addEntry (w : Writer) (filename : Str) : Writer :=
  ⟨w.gridx + 1, w.gridy, (if 0 < w.gridx then w.out ++ [','] else w.out) ++ stripPath filename⟩

/-- Layoutfile.hpp:247-249 (destructor): the content of the finished file. -/
def Writer.close (w : Writer) : Str := w.out ++ ['\n']

/-- Writing a grid row by row, `addRow` before each row. -/
def writeGrid (g : List (List Str)) : Str :=
  (g.foldl (fun w row => row.foldl Writer.addEntry w.addRow) Writer.open).close

/-! ### Reader -/

/-- Repeated `getline(in, s, d)` until it fails: the pieces between delimiters; a last piece is
returned only if it is not empty. -/
def getlines (d : Char) : Str → List Str
  | [] => []
  | c :: cs =>
    if c = d then [] :: getlines d cs
    else match getlines d cs with
      | [] => [[c]]
      | p :: ps => match cs with
        | [] => [[c]]
        | _ => (c :: p) :: ps

/-- Layoutfile.hpp:103-128: the rows and items of the file. -/
def parse (file : Str) : List (List Str) :=
  (getlines '\n' file).map fun row => (getlines ',' row).map trimStr

/-- Layoutfile.hpp:135-137: the longest row. -/
def maxRow (rows : List (List Str)) : Nat := rows.foldl (fun m r => max m r.length) 0

/-- Layoutfile.hpp:139-143: rows one item short get a blank; shorter rows are an error.
`max_row_length-1` is unsigned, so no row matches it when the longest row is empty. -/
def fixRows (m : Nat) : List (List Str) → Option (List (List Str))
  | [] => some []
  | r :: rs =>
    if 0 < m ∧ r.length = m - 1 then (fixRows m rs).map ((r ++ [[]]) :: ·)
    else if r.length < m then none
    else (fixRows m rs).map (r :: ·)

/-- Layoutfile.hpp:88-144 (constructor), on a file that can be opened and read to its end.
`none` is an exception, or `front()` of an empty vector when the file is empty. -/
def readGrid (file : Str) : Option (List (List Str)) :=
  match parse file with
  | [] => none
  | rows => fixRows (maxRow rows) rows

/-- Layoutfile.hpp:71-83: the reader's state. -/
structure Reader where
  fgrid : List (List Str)
  gridy : Int
  gridx : Int
  newRow : Bool
  filename : Str
  basename : Str

/-- Layoutfile.hpp:74-76: initial state after construction. -/
def Reader.start (g : List (List Str)) : Reader := ⟨g, -1, -2, false, [], []⟩

/-- Layoutfile.hpp:184-186 (`getFullPath`), for a reader of the layout file `layoutFilename`. -/
def fullPath (layoutFilename : Str) (r : Reader) : Str := pathOf layoutFilename ++ r.filename

/-- `std::to_string` of a number that is not negative. -/
def decimal (n : Nat) : Str := Nat.toDigits 10 n

/-- Layoutfile.hpp:194-196 (`getGridLocName`), after a successful `next()` (the coordinates are not negative then). -/
def gridLocName (r : Reader) : Str := decimal r.gridx.toNat ++ '_' :: decimal r.gridy.toNat

/-- What `next()` does. -/
inductive Next where
  | more (r : Reader)
  | done
  | ub

/-- Layoutfile.hpp:148-164 (`next`). -/
def Reader.next (r : Reader) : Next :=
  match r.fgrid with
  | [] => .ub
  | row0 :: _ =>
    let gx := r.gridx + 1
    let newRow := gx = -1 ∨ gx = row0.length
    let gy := if newRow then r.gridy + 1 else r.gridy
    let gx := if newRow then 0 else gx
    if newRow ∧ gy = r.fgrid.length then .done
    else
      match (r.fgrid[gy.toNat]?).bind (·[gx.toNat]?) with
      | some f => .more ⟨r.fgrid, gy, gx, decide newRow, f, getBaseName f⟩
      | none => .ub

/-- One observation: coordinates, row-start flag, file name, null-tile flag
(Layoutfile.hpp:167-208). -/
structure Entry where
  x : Int
  y : Int
  newRow : Bool
  filename : Str
  isNull : Bool
deriving DecidableEq

def Reader.entry (r : Reader) : Entry :=
  ⟨r.gridx, r.gridy, r.newRow, r.filename, r.filename.length = 0⟩

/-- `while(reader.next()) …`, at most `n` times; `none` if `next()` is undefined or does not
report the end in time. -/
def drain : Nat → Reader → Option (List Entry)
  | 0, _ => none
  | n + 1, r => match r.next with
    | .done => some []
    | .ub => none
    | .more r' => (drain n r').map (r'.entry :: ·)

/-! ### Lemmas -/

theorem findLast_none {c : Char} {s : Str} : findLast c s = none ↔ c ∉ s := by
  induction s with
  | nil => simp [findLast]
  | cons x xs ih =>
    simp only [findLast, List.mem_cons, not_or]
    cases h : findLast c xs with
    | some i =>
      have : ¬ c ∉ xs := by rw [← ih, h]; simp
      simp [this]
    | none =>
      have := ih.1 h
      by_cases hx : x = c
      · simp [hx]
      · have : c ≠ x := fun e => hx e.symm
        simp_all

theorem findLast_append {c : Char} (a b : Str) (h : c ∉ b) :
    findLast c (a ++ c :: b) = some a.length := by
  induction a with
  | nil =>
    have := findLast_none.2 h
    simp [findLast, this]
  | cons x xs ih => simp [findLast, ih]

theorem findLast_some {c : Char} {s : Str} {i : Nat} (h : findLast c s = some i) :
    ∃ a b, s = a ++ c :: b ∧ a.length = i ∧ c ∉ b := by
  induction s generalizing i with
  | nil => simp [findLast] at h
  | cons x xs ih =>
    simp only [findLast] at h
    cases hx : findLast c xs with
    | some j =>
      rw [hx] at h
      simp only [Option.some.injEq] at h
      obtain ⟨a, b, e, hl, hb⟩ := ih hx
      exact ⟨x :: a, b, by rw [e]; rfl, by simp [hl, h], hb⟩
    | none =>
      rw [hx] at h
      by_cases hc : x = c
      · simp only [hc, if_true, Option.some.injEq] at h
        exact ⟨[], xs, by rw [hc]; rfl, by simpa using h, findLast_none.1 hx⟩
      · simp [hc] at h

/-- A string splits at its last separator. -/
theorem split_last (c : Char) (s : Str) : c ∉ s ∨ ∃ a b, s = a ++ c :: b ∧ c ∉ b := by
  cases h : findLast c s with
  | none => exact .inl (findLast_none.1 h)
  | some i => obtain ⟨a, b, e, _, hb⟩ := findLast_some h; exact .inr ⟨a, b, e, hb⟩

theorem getlines_nil_iff (d : Char) (s : Str) : getlines d s = [] ↔ s = [] := by
  cases s with
  | nil => simp [getlines]
  | cons c cs =>
    simp only [getlines]
    split
    · simp
    · split
      · simp
      · split <;> simp

/-- A piece followed by its delimiter. -/
theorem getlines_piece (d : Char) (p rest : Str) (hp : d ∉ p) :
    getlines d (p ++ d :: rest) = p :: getlines d rest := by
  induction p with
  | nil => simp [getlines]
  | cons c cs ih =>
    simp only [List.mem_cons, not_or] at hp
    have hc : ¬ c = d := fun e => hp.1 e.symm
    rw [List.cons_append, getlines, if_neg hc, ih hp.2]
    cases cs <;> rfl

/-- The last piece. -/
theorem getlines_last (d : Char) (p : Str) (hp : d ∉ p) (hne : p ≠ []) : getlines d p = [p] := by
  induction p with
  | nil => exact absurd rfl hne
  | cons c cs ih =>
    simp only [List.mem_cons, not_or] at hp
    have hc : ¬ c = d := fun e => hp.1 e.symm
    rw [getlines, if_neg hc]
    cases cs with
    | nil => simp [getlines]
    | cons e es => rw [ih hp.2 (by simp)]

/-- Items joined by commas. -/
def joinC : List Str → Str
  | [] => []
  | [a] => a
  | a :: b :: l => a ++ ',' :: joinC (b :: l)

/-- What the reader makes of a row with the given items, before adding blanks. -/
def dropBlank : List Str → List Str
  | [] => []
  | [a] => if a = [] then [] else [a]
  | a :: b :: l => a :: dropBlank (b :: l)

theorem getlines_joinC (l : List Str) (h : ∀ a ∈ l, ',' ∉ a) :
    getlines ',' (joinC l) = dropBlank l := by
  induction l with
  | nil => rfl
  | cons a l ih =>
    cases l with
    | nil =>
      simp only [joinC, dropBlank]
      split
      · rename_i e; rw [e]; rfl
      · rename_i e; exact getlines_last _ _ (h a (by simp)) e
    | cons b l =>
      rw [joinC, getlines_piece _ _ _ (h a (by simp)), ih (fun x hx => h x (by simp [hx]))]
      rfl

theorem dropBlank_mem {l : List Str} {a : Str} (h : a ∈ dropBlank l) : a ∈ l := by
  induction l with
  | nil => simp [dropBlank] at h
  | cons x l ih =>
    cases l with
    | nil => simp only [dropBlank] at h; split at h <;> simp_all
    | cons b l =>
      simp only [dropBlank, List.mem_cons] at h ⊢
      rcases h with h | h
      · exact .inl h
      · have := ih h; simp only [List.mem_cons] at this; exact .inr this

theorem dropBlank_blank (l : List Str) : dropBlank (l ++ [[]]) = l := by
  induction l with
  | nil => rfl
  | cons a l ih =>
    cases l with
    | nil => rfl
    | cons b l => rw [List.cons_append, List.cons_append, dropBlank]; rw [List.cons_append] at ih; rw [ih]

theorem dropBlank_full (l : List Str) (a : Str) (ha : a ≠ []) : dropBlank (l ++ [a]) = l ++ [a] := by
  induction l with
  | nil => simp [dropBlank, ha]
  | cons b l ih =>
    cases l with
    | nil => simp [dropBlank, ha]
    | cons c l => rw [List.cons_append, List.cons_append, dropBlank]; rw [List.cons_append] at ih; rw [ih]

theorem joinC_newline (l : List Str) (h : ∀ a ∈ l, '\n' ∉ a) : '\n' ∉ joinC l := by
  induction l with
  | nil => simp [joinC]
  | cons a l ih =>
    cases l with
    | nil => simpa [joinC] using h a (by simp)
    | cons b l =>
      simp only [joinC, List.mem_append, List.mem_cons, not_or]
      exact ⟨h a (by simp), by decide, ih (fun x hx => h x (by simp [hx]))⟩

theorem joinC_append (l : List Str) (a : Str) (hl : l ≠ []) :
    joinC (l ++ [a]) = joinC l ++ ',' :: a := by
  induction l with
  | nil => exact absurd rfl hl
  | cons b l ih =>
    cases l with
    | nil => rfl
    | cons c l =>
      have := ih (by simp)
      simp only [List.cons_append, joinC, List.append_assoc] at this ⊢
      rw [this]

/-- Adding the entries of a row. -/
theorem addEntries (row : List Str) (w : Writer) (hx : w.gridx = 0) :
    row.foldl Writer.addEntry w =
      ⟨row.length, w.gridy, w.out ++ joinC (row.map stripPath)⟩ := by
  induction row using List.reverseRecOn with
  | nil => cases w; simp_all [joinC]
  | append_singleton l a ih =>
    rw [List.foldl_append, List.foldl_cons, List.foldl_nil, ih]
    simp only [Writer.addEntry, List.length_append, List.length_singleton, List.map_append,
      List.map_cons, List.map_nil]
    cases l with
    | nil => simp [joinC]
    | cons b l =>
      rw [joinC_append _ _ (by simp)]
      simp [List.append_assoc]

/-- The finished file: every row followed by a newline. -/
theorem writeGrid_eq (g : List (List Str)) (hg : g ≠ []) (h0 : ∀ r ∈ g, r ≠ []) :
    writeGrid g = g.flatMap fun r => joinC (r.map stripPath) ++ ['\n'] := by
  have key : ∀ (g : List (List Str)), (∀ r ∈ g, r ≠ []) → ∀ w : Writer, 0 < w.gridx →
      (g.foldl (fun w row => row.foldl Writer.addEntry w.addRow) w).close =
        w.out ++ ['\n'] ++ g.flatMap fun r => joinC (r.map stripPath) ++ ['\n'] := by
    intro g
    induction g with
    | nil => intro _ w _; simp [Writer.close]
    | cons r g ih =>
      intro h0 w hw
      have hr : 0 < r.length := List.length_pos_iff.2 (h0 r (by simp))
      have e : w.addRow = ⟨0, w.gridy + 1, w.out ++ ['\n']⟩ := by
        unfold Writer.addRow; rw [if_neg (by omega)]
      rw [List.foldl_cons, e, addEntries _ _ rfl, ih (fun x hx => h0 x (by simp [hx])) _ hr]
      simp [List.append_assoc]
  cases g with
  | nil => exact absurd rfl hg
  | cons r g =>
    have hr : 0 < r.length := List.length_pos_iff.2 (h0 r (by simp))
    unfold writeGrid
    have e : Writer.open.addRow = Writer.open := rfl
    rw [List.foldl_cons, e, addEntries _ _ rfl, key g (fun x hx => h0 x (by simp [hx])) _ hr]
    simp [Writer.open, List.append_assoc]

end RichDEM.Layout
