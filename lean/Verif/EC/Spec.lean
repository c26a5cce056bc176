import Verif.EC.Model
import Mathlib.AlgebraicGeometry.EllipticCurve.Affine.Point

/-!
# Elliptic curve: specification

The reference is Mathlib's group of points `(curve β).Point` of the Weierstrass curve `y² = x³ + x + β`
with its chord-and-tangent addition, an abelian group by a theorem of Mathlib.
-/

namespace OpenZKP
namespace EC

/-- The curve `y² = x³ + x + β`. -/
def curve {F : Type} [Field F] (β : F) : WeierstrassCurve.Affine F :=
  { a₁ := 0, a₂ := 0, a₃ := 0, a₄ := 1, a₆ := β }

/-- The group of points of the curve. -/
abbrev Pt {F : Type} [Field F] (β : F) := (curve β).Point

/-- How a point of the group is written as a value of the Rust type `Affine`. -/
def ofPoint {F : Type} [Field F] {β : F} : Pt β → Affine F
  | .zero => .Zero
  | .some x y _ => .Point x y

/-- A Jacobian triple represents the group element `P` when the conversion to affine coordinates yields
the coordinates of `P`. -/
def Represents {F : Type} [Field F] [DecidableEq F] {β : F} (j : Jacobian F) (P : Pt β) : Prop :=
  Jacobian.toAffine j = ofPoint P

end EC
end OpenZKP
