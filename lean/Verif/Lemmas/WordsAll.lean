import Verif.Lemmas.WordsFns

/-!
# The words of the conversions, bit operations and the struct
-/

namespace Bf.Text

set_option maxRecDepth 20000
set_option maxHeartbeats 2000000
set_option linter.unusedVariables false

open Quote

namespace Words

variable {P : Printer} {f : Field}

@[simp] theorem fromBytesConvTokens_all {n : Nat} {e : Endian} : All P (fromBytesConvTokens P n e) := by
  unfold fromBytesConvTokens
  pr

@[simp] theorem fromBytesTokens_all {n : Nat} : All P (fromBytesTokens P n) := by
  unfold fromBytesTokens
  pr

@[simp] theorem sliceEndianTokens_all {n : Nat} {e : Endian} : All P (sliceEndianTokens n e) := by
  unfold sliceEndianTokens
  pr

@[simp] theorem copyFromTokens_all {n : Nat} : All P (copyFromTokens P n) := by
  unfold copyFromTokens
  pr

@[simp] theorem copyFromExactTokens_all {n : Nat} : All P (copyFromExactTokens P n) := by
  unfold copyFromExactTokens
  pr

@[simp] theorem fillCheckTokens_all {n : Nat} : All P (fillCheckTokens n) := by
  unfold fillCheckTokens
  pr

@[simp] theorem fromSliceTokens_all {n : Nat} : All P (fromSliceTokens P n) := by
  unfold fromSliceTokens
  pr

@[simp] theorem intoBytesConvTokens_all {n : Nat} {e : Endian} : All P (intoBytesConvTokens P n e) := by
  unfold intoBytesConvTokens
  pr

@[simp] theorem intoBytesTokens_all {n : Nat} : All P (intoBytesTokens P n) := by
  unfold intoBytesTokens
  pr

@[simp] theorem sliceBitsTokens_all {n : Nat} {e : Endian} : All P (sliceBitsTokens P n e) := by
  unfold sliceBitsTokens
  pr

@[simp] theorem copyToTokens_all {n : Nat} : All P (copyToTokens n) := by
  unfold copyToTokens
  pr

@[simp] theorem copyToExactTokens_all {n : Nat} : All P (copyToExactTokens n) := by
  unfold copyToExactTokens
  pr

@[simp] theorem holdCheckTokens_all {n : Nat} : All P (holdCheckTokens n) := by
  unfold holdCheckTokens
  pr

@[simp] theorem intoSliceTokens_all {n : Nat} : All P (intoSliceTokens P n) := by
  unfold intoSliceTokens
  pr

@[simp] theorem fromIntoTokens_all  : All P (fromIntoTokens P) := by
  unfold fromIntoTokens
  pr

@[simp] theorem traitConvTokens_all {into : Bool} : All P (traitConvTokens P into) := by
  unfold traitConvTokens
  generalize (into && P.B.heap) = c
  cases into <;> simp only [Bool.false_eq_true, if_true, if_false] <;> split <;> pr

@[simp] theorem traitFromTokens_all  : All P (traitFromTokens P) := by
  unfold traitFromTokens
  pr

@[simp] theorem traitIntoTokens_all  : All P (traitIntoTokens P) := by
  unfold traitIntoTokens
  pr

@[simp] theorem traitsTokens_all  : All P (traitsTokens P) := by
  unfold traitsTokens
  pr

@[simp] theorem guardTokens_all {g : Guard} : All P (guardTokens P g) := by
  cases g <;> simp only [guardTokens] <;> pr

@[simp] theorem offsetGuardTokens_all {g : Guard} : All P (offsetGuardTokens P g) := by
  unfold offsetGuardTokens
  pr

@[simp] theorem lengthGuardTokens_all {g : Guard} : All P (lengthGuardTokens P g) := by
  unfold lengthGuardTokens
  pr

@[simp] theorem fieldGuardTokens_all {g : Guard} {read : Bool} : All P (fieldGuardTokens P g read) := by
  unfold fieldGuardTokens
  prj

@[simp] theorem setOpsTokens_all  : All P (setOpsTokens P) := by
  unfold setOpsTokens
  pr

@[simp] theorem getOpsTokens_all  : All P (getOpsTokens P) := by
  unfold getOpsTokens
  pr

@[simp] theorem setGetTokens_all  : All P (setGetTokens P) := by
  unfold setGetTokens
  pr

@[simp] theorem debugFieldTokens_all  : All P (debugFieldTokens P) := by
  unfold debugFieldTokens
  prj

@[simp] theorem debugTokens_all  : All P (debugTokens P) := by
  unfold debugTokens
  pr

@[simp] theorem defaultAttrTokens_all  : ∀ ts ∈ defaultAttrTokens P, All P ts := by
  intro ts hts
  simp only [defaultAttrTokens, List.mem_append] at hts
  rcases hts with h | h
  · split at h <;> (cases h with | head => simp | tail _ h => cases h)
  · split at h
    · generalize (P.args.arrayHeap && _) = c at h
      cases c <;> (cases h with | head => simp | tail _ h => cases h)
    · cases h

@[simp] theorem storageTokens_all  : All P (storageTokens P) := by
  unfold storageTokens
  pr

@[simp] theorem memberTokens_all  : ∀ ts ∈ memberTokens P, All P ts := by
  unfold memberTokens
  prj

@[simp] theorem structTokens_all  : All P (structTokens P) := by
  have ha : ∀ ts ∈ defaultAttrTokens P ++ P.attrs.map fun a => [Tok.attr a], All P ts := by
    intro ts hts
    rcases List.mem_append.mp hts with h | h
    · exact defaultAttrTokens_all _ h
    · obtain ⟨a, ha, rfl⟩ := List.mem_map.mp h
      exact all_cons.mpr ⟨.attr ha, all_nil⟩
  unfold structTokens
  generalize (defaultAttrTokens P ++ P.attrs.map fun a => [Tok.attr a]) = as at ha
  pr

@[simp] theorem featureTokens_all {x : Feature} : All P (featureTokens P x) := by
  cases x <;> simp [featureTokens]

@[simp] theorem sectionTokens_all {pos : Position} : ∀ ts ∈ sectionTokens P pos, All P ts := by
  intro ts hts
  obtain ⟨x, -, rfl⟩ := List.mem_map.mp hts
  exact featureTokens_all

@[simp] theorem expansionTokens_all  : All P (expansionTokens P) := by
  unfold expansionTokens
  pr


end Words

end Bf.Text
