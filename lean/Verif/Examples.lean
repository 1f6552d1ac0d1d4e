/-
Literal rasters for non-vacuity examples (not part of the model of the code).
-/
import Verif.Loop

namespace RichDEM

/-- Raster from rows of literals; 0 outside. -/
def ofRows {α : Type*} (d : α) (rows : List (List α)) : Cell → α :=
  fun c => (rows.getD c.2.toNat []).getD c.1.toNat d

/-- Rows of a raster. -/
def toRows {α : Type*} (w h : Nat) (f : Cell → α) : List (List α) :=
  (List.range h).map (fun y : Nat => (List.range w).map (fun x : Nat => f ((x : Int), (y : Int))))

end RichDEM
