import Verif.Model.Text

/-!
# C120: the same document in a release build
-/

set_option autoImplicit false

namespace Svgdom

/-- The same document in a build without `debug_assert!`s. -/
def St.release (s : St) : St := { s with debug := false }

end Svgdom
