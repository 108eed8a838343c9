import Verif.Text.Items
import Verif.Source.Crate

/-! The functions and the constants, from the items. -/

namespace Verif.Text.Functions

set_option maxRecDepth 100000

eachOf functions := allFunctions Items.files by translateFn Items.env Items.defs as Verif.Source.Gen.fn_
eachOf constants := allConstants Items.files by translateConst Items.env Items.defs as Verif.Source.Gen.const_

end Verif.Text.Functions
