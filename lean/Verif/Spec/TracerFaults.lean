import Verif.Spec.OutputFaults
import Verif.Spec.Tracers
/-!
# What is wrong with the tracer array a component returns

The faults of `tracers` among the returned arrays by the exception they are reported with.
-/

namespace Verif

/-- The array returned as `tracers` has too few axes for its wildcard, has too few positions on
the tracer axis, or its other axes do not have the lengths of the tracers of the state. -/
def TracerFault (g : Tracers) (p : Packer) (state : State) (raw : Dict NDArray) : Err → Prop
  | .keyError => raw.get? "tracers" = none ∨
      ∃ a, raw.get? "tracers" = some a ∧ "*" ∈ p.dims ∧ a.shape.length < p.dims.length
  | .indexError => ∃ a, raw.get? "tracers" = some a ∧
      ∀ m, a.shape[p.dims.idxOf "tracer"]? = some m → m < (tracerNames g p).length
  | .invalidPropertyDict => ∃ a, raw.get? "tracers" = some a ∧
      ∀ L, Agrees state (tracerReq g p) L →
        a.shape.eraseIdx (p.dims.idxOf "tracer") ≠
          specShape (p.dims.erase "tracer") (wildSpec (requested state (tracerReq g p))) L
  | _ => False

end Verif
