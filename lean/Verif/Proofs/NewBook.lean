import Verif.Spec.Workbook
import Verif.Proofs.KernelRfl
/-!
# The state of a new workbook
-/
namespace Oxml
open Spec

/-- `Excel::new(None)` evaluated, for every environment and theme. -/
theorem new_eq (env : Env) (theme : XDoc) : Excel.new env theme = .ok (newExcel env theme) := by kernel_rfl

end Oxml
