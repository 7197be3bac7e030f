import Verif.Model.Draws
import Verif.Spec.RealFns

/-!
# Draws of the random engine (specification for C122)
-/

namespace SmartDNN

variable {ρ : Type}

/-- The arguments for which a command is defined. -/
def DrawCmd.Valid : DrawCmd ℝ → Prop
  | .randRange lo hi => lo ≤ hi
  | .xavier n => 0 < n
  | .he n => 0 < n
  | .heRange n _ _ => 0 < n
  | _ => True

/-- The standard normal number behind element `k` of a random tensor: `k` numbers are drawn before. -/
def gaussAt (S : RandSource ρ ℝ) : Nat → ρ → ℝ
  | 0, r => (S.gauss r).1
  | k + 1, r => gaussAt S k (S.gauss r).2

end SmartDNN
