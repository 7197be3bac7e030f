import Verif.Spec.Index

/-!
# Padded, strided, dilated windows
-/

namespace SmartDNN.Spec

/-- The image plane `(n, c)` of a batch `f` of `h × w` images, extended by zero outside. -/
def imagePadded {T : Type} [Zero T] (h w : Nat) (f : List Nat → T) (n c : Nat) (y x : Int) : T :=
  if 0 ≤ y ∧ y < h ∧ 0 ≤ x ∧ x < w then f [n, c, y.toNat, x.toNat] else 0

/-- Input coordinate seen by output position `o` through kernel position `k`. -/
def tap (stride padding dilation : Int) (o k : Nat) : Int := o * stride + k * dilation - padding

/-- A line of `len` elements, padded by `p` on both sides, has exactly `out` windows of `k` kernel positions: window number `o`
exists iff its last kernel position still lies in the padded line. -/
def Windows (len k : Nat) (s p d : Int) (out : Nat) : Prop :=
  0 < s ∧ 0 < k ∧ ∀ o : Nat, o < out ↔ tap s p d o (k - 1) < len + p

/-- Row of kernel entry `(c, ky, kx)` in the unfolded matrix. -/
def colRow (kh kw c ky kx : Nat) : Nat := (c * kh + ky) * kw + kx

/-- Column of output position `(n, oy, ox)` in the unfolded matrix. -/
def colCol (oh ow n oy ox : Nat) : Nat := (n * oh + oy) * ow + ox

end SmartDNN.Spec
