import Verif.Dispatch.Step
import Verif.Dispatch.Caches
/-! The properties C22 (`Caches`), C23 and C50 (`Step`) of the trace-event decision. -/
