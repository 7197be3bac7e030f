import Verif.Model.Parallel
import Verif.Spec.Linear

/-!
# Specification of parallel loops
-/

namespace SmartDNN
namespace Spec

variable {L V : Type} [DecidableEq L]

/-- The iterations `0 .. n-1` are shared out among some threads, each thread running its own in some order. -/
def Partition (n : Nat) (parts : List (List Nat)) : Prop := parts.flatten.Perm (List.range n)

/-- The parallel loop started in memory `mem0` always ends in `memF`: for every way of sharing out the iterations,
every execution, whatever the interleaving, never accesses memory outside the buffers or throws, never races, can
continue as long as it is not finished, makes a bounded number of accesses, and leaves `memF` when finished. -/
def AlwaysGives (mem0 : Mem L V) (body : Nat → Prog L V) (n : Nat) (memF : Mem L V) : Prop :=
  ∀ parts, Partition n parts → ∃ bound, ∀ k c, Config.Steps k (Config.start mem0 body parts) c →
    ¬ c.Failed ∧ ¬ c.Race ∧ (c.Finished ∨ ∃ d, Config.Step c d) ∧ k ≤ bound ∧ (c.Finished → c.mem = memF)

/-- The buffers of the element-wise loops. -/
def bufs {T : Type} (a b result m v : List T) : Buf → List T
  | .a => a
  | .b => b
  | .result => result
  | .m => m
  | .v => v

end Spec
end SmartDNN
