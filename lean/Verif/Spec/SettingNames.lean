/-!
# Specification of the names of settings (C135)
-/

namespace HexoDSP.SettingNamesSpec

/-- A text says something: it is neither empty nor a question mark. -/
def Says (t : String) : Prop := t ≠ "" ∧ t ≠ "?"

end HexoDSP.SettingNamesSpec
