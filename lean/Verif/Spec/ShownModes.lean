import Verif.Model.SettingNames
/-!
# Specification of the display of a setting (C135)
-/

namespace HexoDSP.SettingNamesSpec
open HexoDSP.Table

/-- The setting `param` of `node` with the value `m`, which is in its range, is shown as `t`. -/
def Shown (node param t : String) (m : Int) : Prop :=
  ∃ p lo hi, (NodeId.fromStr node).inpParam param = some p ∧ p.settingMinMax = some (lo, hi) ∧ lo ≤ m ∧ m ≤ hi ∧
    SettingNames.format p m = some t

end HexoDSP.SettingNamesSpec
