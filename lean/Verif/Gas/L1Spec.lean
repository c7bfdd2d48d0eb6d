import Verif.Gas.L1
/-!
# What the samples should be

Any history of the operations on the buffer, and what it means for samples to be consecutive blocks.
-/
namespace Verif.Gas

/-- Consecutive linked blocks. -/
def Linked (buf : List Sample) : Prop :=
  ∀ i a b, buf[i]? = some a → buf[i + 1]? = some b → b.number = a.number + 1 ∧ b.parent = a.hash

/-- The buffers of any history of operations: samples one at a time and in bulk, resets, and blocks from the subscription with
any answers of the Ethereum client. -/
inductive Reachable (cfg : L1Config) (maxGap : Nat) : List Sample → Prop
  | empty : Reachable cfg maxGap []
  | sample {buf buf' d e} : Reachable cfg maxGap buf → addSample cfg buf d = some (buf', e) → Reachable cfg maxGap buf'
  | samples {buf buf' ds e} : Reachable cfg maxGap buf → addSamples cfg buf ds = some (buf', e) → Reachable cfg maxGap buf'
  | clear {buf} : Reachable cfg maxGap buf → Reachable cfg maxGap []
  | block {buf buf' fetch d e} : Reachable cfg maxGap buf → processBlock cfg maxGap fetch buf d = some (buf', e) →
      Reachable cfg maxGap buf'

end Verif.Gas
