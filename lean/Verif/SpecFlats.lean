/-
Specification vocabulary for flats.  Independent of the model of the code.
-/
import Verif.Spec
import Mathlib.Logic.Relation

namespace RichDEM

/-- `c` can be reached from a cell satisfying `seed` in exactly `n` steps of `R`. -/
inductive Hops (seed : Cell → Prop) (R : Cell → Cell → Prop) : Nat → Cell → Prop
  | zero {c} : seed c → Hops seed R 0 c
  | succ {n a b} : Hops seed R n a → R a b → Hops seed R (n + 1) b

/-- `n` is the graph distance of `c` from the seeds. -/
def IsHopDist (seed : Cell → Prop) (R : Cell → Cell → Prop) (c : Cell) (n : Nat) : Prop :=
  Hops seed R n c ∧ ∀ m, Hops seed R m c → n ≤ m

section
variable {E : Type*} [LinearOrder E]

/-- A flat cell: a data cell not on the raster's edge, none of whose neighbours is lower or
NoData. -/
def IsFlat (w h : Nat) (dem : Cell → E) (nodata : E) (c : Cell) : Prop :=
  InGrid w h c ∧ ¬ OnEdge w h c ∧ dem c ≠ nodata ∧
    ∀ b, Adj .D8 c b → ¬ dem b < dem c ∧ dem b ≠ nodata

/-- A cell that drains of itself: a data cell on the edge of the raster, or with a lower or
NoData neighbour. -/
def HasOutlet (w h : Nat) (dem : Cell → E) (nodata : E) (c : Cell) : Prop :=
  InGrid w h c ∧ dem c ≠ nodata ∧
    (OnEdge w h c ∨ ∃ b, Adj .D8 c b ∧ (dem b < dem c ∨ dem b = nodata))

/-- A step between neighbouring cells of the raster that have the same elevation. -/
def EqStep (w h : Nat) (dem : Cell → E) (a b : Cell) : Prop :=
  InGrid w h a ∧ InGrid w h b ∧ Adj .D8 a b ∧ dem b = dem a

/-- Two cells lie in the same connected region of constant elevation. -/
def SameRegion (w h : Nat) (dem : Cell → E) : Cell → Cell → Prop :=
  Relation.ReflTransGen (EqStep w h dem)

/-- A low edge: a cell with an outlet that has a flat neighbour of the same elevation.  `flat` and
`out` say which cells are flat and which have an outlet. -/
def LowEdgeOf (dem : Cell → E) (flat out : Cell → Prop) (c : Cell) : Prop :=
  out c ∧ ∃ b, Adj .D8 c b ∧ flat b ∧ dem b = dem c

/-- A step into a flat cell of the same elevation. -/
def FlatStepOf (dem : Cell → E) (flat : Cell → Prop) (a b : Cell) : Prop :=
  Adj .D8 a b ∧ dem b = dem a ∧ flat b

/-- A flat cell that can be drained: its region contains a cell with an outlet. -/
def DrainableOf (w h : Nat) (dem : Cell → E) (flat out : Cell → Prop) (c : Cell) : Prop :=
  flat c ∧ ∃ o, out o ∧ SameRegion w h dem c o

/-- A low edge of a DEM. -/
abbrev LowEdge (w h : Nat) (dem : Cell → E) (nodata : E) : Cell → Prop :=
  LowEdgeOf dem (IsFlat w h dem nodata) (HasOutlet w h dem nodata)

/-- A high edge: a flat cell with a higher neighbour. -/
def HighEdge (w h : Nat) (dem : Cell → E) (nodata : E) (c : Cell) : Prop :=
  IsFlat w h dem nodata c ∧ ∃ b, Adj .D8 c b ∧ InGrid w h b ∧ dem c < dem b

/-- A flat cell of a DEM that can be drained. -/
abbrev Drainable (w h : Nat) (dem : Cell → E) (nodata : E) : Cell → Prop :=
  DrainableOf w h dem (IsFlat w h dem nodata) (HasOutlet w h dem nodata)

/-- A step into a flat cell of the same elevation. -/
abbrev FlatStep (w h : Nat) (dem : Cell → E) (nodata : E) : Cell → Cell → Prop :=
  FlatStepOf dem (IsFlat w h dem nodata)

theorem EqStep.symm {w h : Nat} {dem : Cell → E} {a b : Cell} (s : EqStep w h dem a b) :
    EqStep w h dem b a := ⟨s.2.1, s.1, s.2.2.1.symm, s.2.2.2.symm⟩

theorem SameRegion.symm {w h : Nat} {dem : Cell → E} {a b : Cell} (s : SameRegion w h dem a b) :
    SameRegion w h dem b a := by
  induction s with
  | refl => exact .refl
  | tail _ h2 ih => exact Relation.ReflTransGen.head h2.symm ih

theorem SameRegion.elev {w h : Nat} {dem : Cell → E} {a b : Cell} (s : SameRegion w h dem a b) :
    dem b = dem a := by
  induction s with
  | refl => rfl
  | tail _ h2 ih => rw [h2.2.2.2, ih]

theorem SameRegion.inGrid {w h : Nat} {dem : Cell → E} {a b : Cell} (s : SameRegion w h dem a b)
    (ha : InGrid w h a) : InGrid w h b := by
  cases Relation.ReflTransGen.cases_tail s with
  | inl e => rw [← e] at ha; exact ha
  | inr e => exact e.choose_spec.2.2.1

theorem flat_or_outlet {w h : Nat} {dem : Cell → E} {nodata : E} {c : Cell} (hc : InGrid w h c)
    (hd : dem c ≠ nodata) : IsFlat w h dem nodata c ∨ HasOutlet w h dem nodata c := by
  by_cases h1 : OnEdge w h c
  · exact .inr ⟨hc, hd, .inl h1⟩
  · by_cases h2 : ∃ b, Adj .D8 c b ∧ (dem b < dem c ∨ dem b = nodata)
    · exact .inr ⟨hc, hd, .inr h2⟩
    · left
      refine ⟨hc, h1, hd, fun b hb => ⟨fun e => h2 ⟨b, hb, .inl e⟩, fun e => h2 ⟨b, hb, .inr e⟩⟩⟩

theorem flat_not_outlet {w h : Nat} {dem : Cell → E} {nodata : E} {c : Cell}
    (hf : IsFlat w h dem nodata c) : ¬ HasOutlet w h dem nodata c := by
  rintro ⟨_, _, h1 | ⟨b, hb, h2 | h2⟩⟩
  · exact hf.2.1 h1
  · exact (hf.2.2.2 b hb).1 h2
  · exact (hf.2.2.2 b hb).2 h2

end

end RichDEM
