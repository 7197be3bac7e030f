import Verif.Model.Datasets
import Mathlib.Algebra.Order.Floor.Defs
import Mathlib.Algebra.Order.Field.Basic

/-!
# Vocabulary for datasets: IDX files, batches, the ASCII ramp
-/

namespace SmartDNN.Spec

/-- Big-endian encoding of a 32-bit number. -/
def be32 (n : Nat) : List Byte :=
  [Fin.ofNat 256 (n / 2 ^ 24), Fin.ofNat 256 (n / 2 ^ 16), Fin.ofNat 256 (n / 2 ^ 8), Fin.ofNat 256 n]

/-- An IDX image file: magic number 2051, number of images, rows, columns, pixels. -/
def imageFile (n r c : Nat) (pixels : List Byte) : List Byte :=
  be32 2051 ++ be32 n ++ be32 r ++ be32 c ++ pixels

/-- An IDX label file: magic number 2049, number of labels, labels. -/
def labelFile (n : Nat) (labels : List Byte) : List Byte := be32 2049 ++ be32 n ++ labels

/-- Number of items a loader takes from a file announcing `n`: all of them without a limit (`-1`), the limit
otherwise. -/
def Takes (limit : Int) (n N : Nat) : Prop := (limit = -1 ∧ N = n) ∨ limit = N

/-- `sizes` are the sizes of consecutive batches of `b` out of `n` items. -/
def batchSize (n b k : Nat) : Nat := min b (n - k * b)

/-- `⌈n / b⌉`. -/
def batchCount (n b : Nat) : Nat := (n + b - 1) / b

end SmartDNN.Spec
