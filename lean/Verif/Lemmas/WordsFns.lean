import Verif.Lemmas.Words

/-!
# The words of the accessors, constructors, builders, clearing, inverting and writing
-/

namespace Bf.Text

set_option maxRecDepth 20000
set_option maxHeartbeats 2000000
set_option linter.unusedVariables false

open Quote

namespace Words

variable {P : Printer} {f : Field}

@[simp] theorem signExtendTokens_all  (hf : f ∈ P.B.fields) : All P (signExtendTokens f) := by
  unfold signExtendTokens
  pr

@[simp] theorem protTokens_all {p : Protection} : All P (protTokens P p) := by
  unfold protTokens
  pr

@[simp] theorem paramTokens_all  : All P (paramTokens P) := by
  unfold paramTokens
  pr

@[simp] theorem constantsTokens_all  : All P (constantsTokens P) := by
  unfold constantsTokens
  prj

@[simp] theorem returnTokens_all  (hf : f ∈ P.B.fields) : All P (returnTokens P f) := by
  unfold returnTokens
  pr

@[simp] theorem getterTokens_all  (hf : f ∈ P.B.fields) : All P (getterTokens P f) := by
  unfold getterTokens
  pr

@[simp] theorem gettersTokens_all  : All P (gettersTokens P) := by
  unfold gettersTokens
  prj

@[simp] theorem settersTokens1_all  (hf : f ∈ P.B.fields) : All P (settersTokens1 P f) := by
  unfold settersTokens1
  pr

@[simp] theorem settersTokens_all  : All P (settersTokens P) := by
  unfold settersTokens
  prj

@[simp] theorem newFnTokens_all  : All P (newFnTokens P) := by
  unfold newFnTokens
  pr

@[simp] theorem newWithoutFnTokens_all  : All P (newWithoutFnTokens P) := by
  unfold newWithoutFnTokens
  pr

@[simp] theorem newFnsTokens_all  : All P (newFnsTokens P) := by
  unfold newFnsTokens
  pr

@[simp] theorem defaultBodyTokens_all  : All P (defaultBodyTokens P) := by
  unfold defaultBodyTokens
  pr

@[simp] theorem defaultTokens_all  : All P (defaultTokens P) := by
  unfold defaultTokens
  pr

@[simp] theorem builderNewTokens_all {defaults : Bool} : All P (builderNewTokens P defaults) := by
  unfold builderNewTokens
  pr

@[simp] theorem builderSettersTokens1_all  (hf : f ∈ P.B.fields) : All P (builderSettersTokens1 P f) := by
  unfold builderSettersTokens1
  pr

@[simp] theorem builderSettersTokens_all  : All P (builderSettersTokens P) := by
  unfold builderSettersTokens
  prj

@[simp] theorem builderTokens_all  : All P (builderTokens P) := by
  unfold builderTokens
  pr

@[simp] theorem clearAllTokens_all  : All P (clearAllTokens P) := by
  unfold clearAllTokens
  pr

@[simp] theorem clearFieldTokens_all  (hf : f ∈ P.B.fields) : All P (clearFieldTokens P f) := by
  unfold clearFieldTokens
  pr

@[simp] theorem clearToDefaultTokens_all  (hf : f ∈ P.B.fields) : All P (clearToDefaultTokens P f) := by
  unfold clearToDefaultTokens
  pr

@[simp] theorem clearTokens_all  : All P (clearTokens P) := by
  unfold clearTokens
  pr

@[simp] theorem toFieldTokens_all  (hf : f ∈ P.B.fields) : All P (toFieldTokens P f) := by
  unfold toFieldTokens
  pr

@[simp] theorem invertAllTokens_all  : All P (invertAllTokens P) := by
  unfold invertAllTokens
  pr

@[simp] theorem invertFieldTokens_all  (hf : f ∈ P.B.fields) : All P (invertFieldTokens P f) := by
  unfold invertFieldTokens
  pr

@[simp] theorem invertedTokens_all  (hf : f ∈ P.B.fields) : All P (invertedTokens P f) := by
  unfold invertedTokens
  pr

@[simp] theorem invertTokens_all  : All P (invertTokens P) := by
  unfold invertTokens
  pr

@[simp] theorem writeConvTokens_all {e : Endian} : All P (writeConvTokens P e) := by
  unfold writeConvTokens
  pr

@[simp] theorem writeTokens_all  : All P (writeTokens P) := by
  unfold writeTokens
  pr

@[simp] theorem intEndianTokens_all {e : Endian} : All P (intEndianTokens e) := by
  unfold intEndianTokens
  pr

@[simp] theorem fromBitsTokens_all  : All P (fromBitsTokens P) := by
  unfold fromBitsTokens
  pr

@[simp] theorem intoBitsTokens_all  : All P (intoBitsTokens P) := by
  unfold intoBitsTokens
  pr

end Words

end Bf.Text
