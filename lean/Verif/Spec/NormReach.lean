import Verif.Props.Rewrite
import Verif.Props.BatchNorm
import Verif.Props.Conv

/-!
# What batch normalisation ignores and how far it reaches (specification for C114)
-/

namespace SmartDNN
open Net Spec

/-- Number of values per feature that batch normalisation averages over: the rows of a batch of vectors, the pixels of all images of a batch of images. -/
def Spec.perFeature (ds : List Nat) : Nat := ds.headD 1 * (ds.drop 2).prod

/-- A convolution layer with these sizes and parameters, as `setWeights` and `setBiases` leave it. -/
def Spec.convLayer (ic oc kh kw : Nat) (s q d : Int) (w b : Tensor ℝ) : Layer ℝ := ⟨.conv ⟨ic, oc, kh, kw, s, q, d, w, b, none, none, none⟩, true⟩

end SmartDNN
