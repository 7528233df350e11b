import Verif.RunTests.Select
import Verif.RunTests.ParallelProps
import Verif.RunTests.ReportProps
/-! The theorems about the test runner (C75 to C78). -/
