import Verif.Model.Network

/-!
# Printing: `toDataString`, `toString`, `toDetailedString` of tensors, the console output of `train`, the logger

Element values go through the stream inserter `oss << data_[i]`; `fmt` stands for it.  Its result depends on the element type and
the stream's formatting state, and is not modelled further.
-/

namespace SmartDNN

variable {T : Type}

/-- The loop over the first `n` elements in `TensorData::toString` and `toDataString` (TensorDataCPU.impl.hpp:105-108,
118-121), appending to the stream contents `s`; undefined behaviour outside the buffer. -/
def Tensor.printElements (fmt : T → String) (t : Tensor T) (n : Nat) (s : String) : Res String :=
  forN n s (fun i s => do
    let x ← rd t.data i
    return (if 0 < i then s ++ ", " else s) ++ fmt x)

/-- `TensorData::toDataString`, `Tensor::toDataString` (TensorDataCPU.impl.hpp:114-124, Tensor.impl.hpp:220-223). -/
def Tensor.toDataString (fmt : T → String) (t : Tensor T) : Res String := do
  let s ← t.printElements fmt t.shape.size "["
  return s ++ "]"

/-- `TensorData::toString` (TensorDataCPU.impl.hpp:98-112); `name` is `typeid(T).name()`. -/
def Tensor.dataToString (fmt : T → String) (name : String) (t : Tensor T) : Res String := do
  let s ← t.printElements fmt (min t.shape.size 10)
    ("TensorData<" ++ name ++ ", CPUDevice>:\n" ++ "Shape: " ++ t.shape.toString ++ "\n" ++ "Data: [")
  return (if 10 < t.shape.size then s ++ ", ..." else s) ++ "]"

/-- `Tensor::toDetailedString` (Tensor.impl.hpp:212-218). -/
def Tensor.toDetailedString (fmt : T → String) (name : String) (t : Tensor T) : Res String := do
  return "Tensor:\n" ++ (← t.dataToString fmt name) ++ "\n"

/-- The line printed after epoch number `epoch` with the mean loss `loss` (SmartDNN.impl.hpp:47). -/
def Net.epochLine (fmt : T → String) (epoch : Nat) (loss : Tensor T) : Res String := do
  return "Epoch " ++ ToString.toString epoch ++ " - Loss: " ++ (← loss.toDataString fmt) ++ "\n"

/-- The console output of `train` (SmartDNN.impl.hpp:32-48), from the losses of the epochs it finished.  Epochs are numbered from 0. -/
def Net.console (fmt : T → String) (losses : List (Tensor T)) : Res String :=
  forN losses.length "" (fun epoch out => do
    let loss ← rd losses epoch
    return out ++ (← Net.epochLine fmt epoch loss))

/-- `Logger::Level` (Logger.hpp:10-14). -/
inductive LogLevel where
  | info | warning | error
  deriving DecidableEq

/-- `Logger::levelToString` (Logger.hpp:41-48). -/
def LogLevel.toString : LogLevel → String
  | .info => "INFO"
  | .warning => "WARNING"
  | .error => "ERROR"

/-- What `Logger::log` writes to the console (Logger.hpp:16-38); `enabled` is whether `ENABLE_LOGGING` is defined. -/
def logOutput (enabled : Bool) (level : LogLevel) (message : String) : String :=
  if enabled then "[" ++ level.toString ++ "] " ++ message ++ "\n" else ""

/-- `BroadcastView::toString` (BroadcastView.hpp:130-134). -/
def BView.toString (v : BView) : String := "BroadcastView of shape " ++ v.shape.toString ++ " from original shape " ++ v.orig.toString

/-- `SliceView::toString` (SliceView.hpp:141-145). -/
def SView.toString (v : SView) : String := "SliceView of shape " ++ v.shape.toString ++ " from original shape " ++ v.orig.toString

end SmartDNN
