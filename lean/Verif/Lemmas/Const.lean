import Verif.SpecConst

/-!
# The emitted functions may be `const`: helper lemmas
-/

namespace Bf.Quote

open Rust

variable {B : Bitfield} {f : Field}

theorem all_constOk {ss : List Stmt} (h : ∀ s ∈ ss, s.constOk = true) : (Stmt.all ss).constOk = true := by
  induction ss with
  | nil => rfl
  | cons s ss ih =>
    simp only [Stmt.all, Stmt.constOk, Bool.and_eq_true]
    exact ⟨h s (by simp), ih fun s hs => h s (by simp [hs])⟩

theorem map_constOk {α : Type} {g : α → Stmt} {l : List α} (h : ∀ a, (g a).constOk = true) :
    (Stmt.all (l.map g)).constOk = true :=
  all_constOk fun s hs => by
    obtain ⟨a, -, rfl⟩ := List.mem_map.mp hs
    exact h a

theorem bits_constOk (b : Bool) : (bitsTok f b).constOk = true := by unfold bitsTok; split <;> rfl
theorem off_constOk (b : Bool) : (offTok f b).constOk = true := by unfold offTok; split <;> rfl
theorem source_constOk (s : Source) (b : Bool) : (sourceTok s b).constOk = true := by cases s <;> rfl

theorem notIf_constOk {inv : Bool} {e : Expr} (h : e.constOk = true) : (notIf inv e).constOk = true := by
  cases inv <;> simpa [notIf, Expr.constOk] using h

theorem mask128_constOk {e : Expr} (h : e.constOk = true) : (mask128Tok e).constOk = true := by
  simp [mask128Tok, Expr.constOk, h]

theorem unpack_constOk {v : String} {e : Expr} {n : Nat} (h : e.constOk = true) : (unpackTok v e n).constOk = true := by
  simp [unpackTok, Stmt.all, Expr.constOk, Stmt.constOk, byteTok, incr, h]

theorem pack_constOk (w n : Nat) : (packTok w n).constOk = true := by
  simp [packTok, Stmt.all, Expr.constOk, Stmt.constOk, incr]

theorem readArr_constOk {s b o : Expr} {n : Nat} {inv : Bool} (h1 : s.constOk = true) (h2 : b.constOk = true)
    (h3 : o.constOk = true) : (readArrTok s b o n inv).constOk = true := by
  cases inv <;> simp [readArrTok, Stmt.all, Expr.constOk, Stmt.constOk, incr, h1, h2, h3]

theorem read_constOk {s b o : Expr} {inv : Bool} (h1 : s.constOk = true) (h2 : b.constOk = true)
    (h3 : o.constOk = true) : (readTok s b o inv).constOk = true := by
  cases inv <;> simp [readTok, Stmt.all, Expr.constOk, Stmt.constOk, incr, mask128Tok, h1, h2, h3]

theorem extract_constOk (src : Source) (cast inv builder : Bool) : (extractTok B f src cast inv builder).constOk = true := by
  have h1 := source_constOk src builder
  have h2 := bits_constOk (f := f) builder
  have h3 := off_constOk (f := f) builder
  have h4 : ∀ e : Expr, e.constOk = true → (notIf inv e).constOk = true := fun e => notIf_constOk
  unfold extractTok
  split
  · refine all_constOk fun s hs => ?_
    simp only [List.mem_cons, List.not_mem_nil, or_false] at hs
    rcases hs with rfl | rfl | rfl
    · simp [Stmt.constOk, maskTok, Expr.constOk, h2]
    · split
      · split <;> simp [Stmt.constOk, Expr.constOk, pack_constOk]
      · rfl
    · split <;> simp [Stmt.constOk, Expr.constOk, h1, h3, h4]
  · split
    · have h5 := h4 (.var "val") rfl
      dsimp only
      split <;> simp [Stmt.all, Stmt.constOk, Expr.constOk, mask128_constOk h2, h5]
    · split
      · simp [Stmt.constOk, readArr_constOk h1 h2 h3]
      · simp [Stmt.constOk, read_constOk h1 h2 h3]

theorem value_constOk : (valueTok f).constOk = true := by unfold valueTok; split <;> rfl

theorem setterCall_constOk {e : Expr} (h : e.constOk = true) (b : Bool) : (setterCallTok B f e b).constOk = true := by
  unfold setterCallTok
  split <;> try split
  all_goals simp [Stmt.constOk, Expr.constOk, inherent, h, unpack_constOk]

theorem direct_constOk {e : Expr} (h : e.constOk = true) (b : Bool) : (directTok B f e b).constOk = true := by
  have h2 := bits_constOk (f := f) b
  have h3 := off_constOk (f := f) b
  unfold directTok
  split
  · split
    · simp [Stmt.all, Stmt.constOk, Expr.constOk, storeByteBitTok, incr, h, h2, h3]
    · have hv : ∀ ty : DataType, (match ty with
           | .int .bool => Expr.ite e (.lit 1 (some (.u 128))) (.lit 0 (some (.u 128)))
           | .custom _ => .cast (.intoBits e) (.u 128)
           | _ => .cast e (.u 128)).constOk = true := by
        intro ty; split <;> simp [Expr.constOk, h]
      simp only [Stmt.all, Stmt.constOk, Expr.constOk, storeByteBitTok, incr, h2, h3, Bool.and_self, Bool.and_true]
      exact hv _
  · split <;> simp [Stmt.all, Stmt.constOk, Expr.constOk, storeBitTok, storeBitsTok, maskTok, h, h2, h3]

theorem signedCheck_constOk : (signedCheckTok f).constOk = true := by
  unfold signedCheckTok
  split
  · split <;> simp [Stmt.constOk, Expr.constOk]
  · rfl

theorem builderSet_constOk (check : Bool) : (builderSetTok f check).constOk = true := by
  unfold builderSetTok
  cases check <;> simp only [Bool.false_eq_true, if_true, if_false, Stmt.constOk] <;> split <;>
    simp [Expr.constOk, inherent]

theorem setFromVar_constOk (u c k b : Bool) : (setFromVarTok B f u c k b).constOk = true := by
  unfold setFromVarTok
  dsimp only
  split
  · exact builderSet_constOk _
  · refine all_constOk fun s hs => ?_
    simp only [List.mem_cons, List.not_mem_nil, or_false] at hs
    rcases hs with rfl | rfl | rfl | rfl
    · split
      · exact signedCheck_constOk
      · rfl
    · exact extract_constOk _ _ _ _
    · split <;> rfl
    · split
      · exact setterCall_constOk value_constOk _
      · exact direct_constOk value_constOk _

theorem setAll_constOk (p : Protection) : (setAllTok B p).constOk = true :=
  map_constOk fun _ => setFromVar_constOk _ _ _ _

theorem setDefault_constOk : (setDefaultTok B f).constOk = true := by
  unfold setDefaultTok
  split
  · split
    · exact setterCall_constOk rfl _
    · exact direct_constOk rfl _
  · rfl

theorem setDefaults_constOk : (setDefaultsTok B).constOk = true := map_constOk fun _ => setDefault_constOk

theorem zero_constOk : (zeroTok B f).constOk = true := by
  unfold zeroTok
  split <;> try split
  all_goals rfl

theorem setZero_constOk : (setZeroTok B f).constOk = true := by
  unfold setZeroTok
  split
  · exact setterCall_constOk zero_constOk _
  · exact direct_constOk zero_constOk _

/-- The bits are not in a `Box`. -/
def Unboxed (B : Bitfield) : Prop := ∀ n, B.backing = .arr n → B.heap = false

theorem init_constOk (h : Unboxed B) (b : Bool) {mu : Bool} : (initTok B b mu).constOk = true := by
  unfold initTok
  simp only [Stmt.constOk]
  cases hB : B.backing with
  | int w => rfl
  | arr n => simp only [h n hB]; rfl

theorem innerArr_constOk {n : Nat} (h : Unboxed B) (hB : B.backing = .arr n) : innerArrTok B = .inner false := by
  simp only [innerArrTok, h n hB, Bool.false_eq_true, if_false]

theorem new_constOk (h : Unboxed B) (d b e : Bool) : (newTok B d b e).constOk = true := by
  unfold newTok
  refine all_constOk fun s hs => ?_
  simp only [List.mem_cons, List.not_mem_nil, or_false] at hs
  rcases hs with rfl | rfl | rfl | rfl
  · split
    · rfl
    · exact init_constOk h _
  · exact map_constOk fun _ => setZero_constOk
  · split
    · exact setDefaults_constOk
    · rfl
  · split
    · rfl
    · exact map_constOk fun _ => setDefault_constOk

theorem signExtend_constOk : (signExtendTok f).constOk = true := by
  unfold signExtendTok
  split
  · rfl
  · split
    · rfl
    · split <;> rfl

theorem prot_constOk (p : Protection) : (protTok B p).constOk = true := by
  unfold protTok
  split <;> rfl

theorem return_constOk : (returnTok B f).constOk = true := by
  unfold returnTok
  split <;> try split
  all_goals first | rfl | exact unpack_constOk rfl

theorem xorLoop_constOk (n : Nat) (suffix : Bool) : (xorLoopTok n suffix).constOk = true := by
  cases suffix <;> simp [xorLoopTok, Stmt.all, Stmt.constOk, Expr.constOk, incr]

theorem fromConv_constOk (e : Option Endian) : (fromConvTok B e).constOk = true := by
  unfold fromConvTok
  split
  · split <;> try rfl
    cases B.fromEndian <;> rfl
  · split <;> simp [Stmt.all, Stmt.constOk, Expr.constOk, xorLoop_constOk]

theorem copyLoop_constOk {a b : String} {e : Expr} : (copyLoopTok a b e).constOk = e.constOk := by
  simp [copyLoopTok, Stmt.all, Stmt.constOk, Expr.constOk, incr]

theorem sliceEndian_constOk (n : Nat) (e : Endian) : (sliceEndianTok n e).constOk = true := by
  cases e
  · rfl
  · exact xorLoop_constOk n true

theorem sliceBits_constOk {n : Nat} (h : Unboxed B) (hB : B.backing = .arr n) (e : Endian) :
    (sliceBitsTok B n e).constOk = true := by
  cases e
  · simp [sliceBitsTok, innerArr_constOk h hB, Stmt.constOk, Expr.constOk]
  · simp [sliceBitsTok, innerArr_constOk h hB, Stmt.all, Stmt.constOk, Expr.constOk, xorLoop_constOk]

theorem writeConv_constOk (e : Endian) : (writeConvTok B e).constOk = true := by
  unfold writeConvTok
  split
  · split
    · rfl
    · simp [Stmt.all, Stmt.constOk, Expr.constOk, xorLoop_constOk]
  · rfl

theorem defaults_constOk (d : Bool) : (if d then setDefaultsTok B else .skip).constOk = true := by
  cases d
  · rfl
  · exact setDefaults_constOk

theorem size_constOk : (sizeTok B).constOk = true := by unfold sizeTok; split <;> rfl

/-- Without ignored fields, the guards do not use `contains`. -/
theorem fieldGuard_constOk {G : Gen} (hg : G.ignored = false) (read : Bool) {r : Stmt} (h : r.constOk = true) :
    (fieldGuardTok G read r).constOk = true :=
  map_constOk fun f => by simp [hg, Stmt.constOk, Expr.constOk, h]

theorem returnZero_constOk : (returnZeroTok B).constOk = true := by
  unfold returnZeroTok
  simp only [Stmt.constOk]
  split <;> rfl

theorem setBit_constOk : (setBitTok B).constOk = true := by
  unfold setBitTok
  split <;> rfl

theorem offsetGuard_constOk {r : Stmt} : (offsetGuardTok B r).constOk = r.constOk := by
  simp [offsetGuardTok, Stmt.constOk, Expr.constOk, size_constOk]

theorem lengthGuard_constOk {r : Stmt} : (lengthGuardTok B r).constOk = r.constOk := by
  simp [lengthGuardTok, Stmt.constOk, Expr.constOk, size_constOk]

theorem protLoop_constOk (a b c d : String) : (protLoopTok a b c d).constOk = true := rfl

/-! ## The functions -/

theorem getter_constOk : (getterFn B f).constOk = true := by
  simp [Fn.constOk, getterFn, Stmt.all, Stmt.constOk, extract_constOk, signExtend_constOk, return_constOk]

theorem setter_constOk : (setterFn B f).constOk = true := by
  simp [Fn.constOk, setterFn, Stmt.all, Stmt.constOk, setFromVar_constOk, Expr.constOk]

theorem checkedSetter_constOk : (checkedSetterFn B f).constOk = true := by
  simp [Fn.constOk, checkedSetterFn, Stmt.all, Stmt.constOk, setFromVar_constOk, Expr.constOk]

theorem inverted_constOk : (invertedFn B f).constOk = true := by
  simp [Fn.constOk, invertedFn, Stmt.all, Stmt.constOk, extract_constOk, return_constOk]

theorem invertField_constOk : (invertFieldFn B f).constOk = true := by
  simp [Fn.constOk, invertFieldFn, Stmt.all, Stmt.constOk, Expr.constOk, inherent, extract_constOk, return_constOk]

theorem clearField_constOk : (clearFieldFn B f).constOk = true := by
  simp [Fn.constOk, clearFieldFn, Stmt.all, Stmt.constOk, Expr.constOk, setZero_constOk]

theorem clearToDefault_constOk : (clearToDefaultFn B f).constOk = true := by
  simp [Fn.constOk, clearToDefaultFn, Stmt.all, Stmt.constOk, Expr.constOk, setDefault_constOk]

theorem newFn_constOk (h : Unboxed B) (d : Bool) : (newFn B d).constOk = true := by
  simp [Fn.constOk, newFn, Expr.constOk, new_constOk h]

theorem builderNew_constOk {G : Gen} (h : Unboxed G.B) (d : Bool) : (builderNewFn G d).constOk = true := by
  unfold builderNewFn Fn.constOk
  cases G.new
  · simp [Expr.constOk, new_constOk h]
  · rfl

theorem with_constOk : (withFn B f).constOk = true := by
  simp [Fn.constOk, withFn, setFromVar_constOk, Expr.constOk]

theorem checkedWith_constOk : (checkedWithFn B f).constOk = true := by
  simp [Fn.constOk, checkedWithFn, setFromVar_constOk, Expr.constOk]

theorem clear_constOk (h : Unboxed B) (d : Bool) : (clearFn B d).constOk = true := by
  simp [Fn.constOk, clearFn, Stmt.all, Stmt.constOk, Expr.constOk, new_constOk h]

theorem from_constOk (h : Unboxed B) (e : Option Endian) (d : Bool) : (fromFn B e d).constOk = true := by
  simp only [Fn.constOk, fromFn, Stmt.all, Stmt.constOk, Expr.constOk, fromConv_constOk, init_constOk h, setAll_constOk,
    defaults_constOk, Bool.and_self]

theorem into_constOk (h : Unboxed B) (e : Option Endian) : (intoFn B e).constOk = true := by
  unfold intoFn Fn.constOk
  cases hB : B.backing with
  | int w => cases e.getD B.intoEndian <;> simp [Stmt.all, Stmt.constOk, Expr.constOk, intEndianTok]
  | arr n =>
    cases e.getD B.intoEndian <;>
      simp [Stmt.all, Stmt.constOk, Expr.constOk, xorLoop_constOk, innerArr_constOk h hB]

theorem fromSlice_constOk (h : Unboxed B) (n : Nat) (e : Option Endian) (d : Bool) : (fromSliceFn B n e d).constOk = true := by
  simp only [Fn.constOk, fromSliceFn, Stmt.all, Stmt.constOk, Expr.constOk, copyLenTok, copyLoop_constOk,
    sliceEndian_constOk, init_constOk h, setAll_constOk, defaults_constOk, Bool.and_self]

theorem checkedFromSlice_constOk (h : Unboxed B) (n : Nat) (e : Option Endian) (d : Bool) : (checkedFromSliceFn B n e d).constOk = true := by
  simp only [Fn.constOk, checkedFromSliceFn, Stmt.all, Stmt.constOk, Expr.constOk, sliceCheckTok, copyLoop_constOk,
    sliceEndian_constOk, init_constOk h, setAll_constOk, defaults_constOk, Bool.and_self]

theorem intoSlice_constOk {n : Nat} (h : Unboxed B) (hB : B.backing = .arr n) (e : Option Endian) : (intoSliceFn B n e).constOk = true := by
  simp only [Fn.constOk, intoSliceFn, Stmt.all, Stmt.constOk, Expr.constOk, copyLenTok, copyLoop_constOk,
    sliceBits_constOk h hB, Bool.and_self]

theorem checkedIntoSlice_constOk {n : Nat} (h : Unboxed B) (hB : B.backing = .arr n) (e : Option Endian) : (checkedIntoSliceFn B n e).constOk = true := by
  simp only [Fn.constOk, checkedIntoSliceFn, Stmt.all, Stmt.constOk, Expr.constOk, sliceCheckTok, copyLoop_constOk,
    sliceBits_constOk h hB, Bool.and_self]

theorem write_constOk (e : Option Endian) (d : Bool) : (writeFn B e d).constOk = true := by
  simp only [Fn.constOk, writeFn, Stmt.all, Stmt.constOk, Expr.constOk, writeConv_constOk, setAll_constOk,
    defaults_constOk, Bool.and_self]

theorem writeDefaults_constOk : (writeDefaultsFn B).constOk = true := by
  simp [Fn.constOk, writeDefaultsFn, Stmt.all, Stmt.constOk, Expr.constOk, setDefaults_constOk]

theorem invert_constOk (h : Unboxed B) : (invertFn B).constOk = true := by
  unfold invertFn Fn.constOk
  cases hB : B.backing with
  | int w => simp [Stmt.all, Stmt.constOk, Expr.constOk, prot_constOk, setAll_constOk]
  | arr n => simp [Stmt.all, Stmt.constOk, Expr.constOk, prot_constOk, setAll_constOk, incr, innerArr_constOk h hB]

section Guarded

variable {G : Gen}

theorem setBitFn_constOk (hg : G.ignored = false) : (setBitFn G).constOk = true := by
  have hf := fieldGuard_constOk hg false (r := .ret .unit) rfl
  simp [Fn.constOk, setBitFn, Stmt.all, Stmt.constOk, Expr.constOk, offsetGuard_constOk, hf, setBit_constOk]

theorem checkedSetBitFn_constOk (hg : G.ignored = false) : (checkedSetBitFn G).constOk = true := by
  have hf := fieldGuard_constOk hg false (r := .ret (.errE errWrite)) rfl
  simp [Fn.constOk, checkedSetBitFn, Stmt.all, Stmt.constOk, Expr.constOk, offsetGuard_constOk, hf,
    setBit_constOk]

theorem getBitFn_constOk (hg : G.ignored = false) : (getBitFn G).constOk = true := by
  have hf := fieldGuard_constOk hg true (r := .ret (.bool false)) rfl
  have h1 : (bitIndexTok G.B).constOk = true := by unfold bitIndexTok; split <;> rfl
  have h2 : (getBitTok G.B).constOk = true := by unfold getBitTok; split <;> rfl
  simp [Fn.constOk, getBitFn, Stmt.all, Stmt.constOk, Expr.constOk, offsetGuard_constOk, hf, h1, h2]

theorem checkedGetBitFn_constOk (hg : G.ignored = false) : (checkedGetBitFn G).constOk = true := by
  have hf := fieldGuard_constOk hg true (r := .ret (.errE errRead)) rfl
  have h1 : (bitIndexTok G.B).constOk = true := by unfold bitIndexTok; split <;> rfl
  have h2 : (getBitTok G.B).constOk = true := by unfold getBitTok; split <;> rfl
  simp [Fn.constOk, checkedGetBitFn, Stmt.all, Stmt.constOk, Expr.constOk, offsetGuard_constOk, hf, h1, h2]

theorem setRange_constOk : (setRangeFn G).constOk = true := by
  unfold setRangeFn Fn.constOk
  cases G.B.backing <;> simp [Stmt.all, Stmt.constOk, Expr.constOk, offsetGuard_constOk, lengthGuard_constOk, prot_constOk,
    maskTok, upToTok, srcBitTok, bitSetTok, posTok, isProtTok, storeByteBitTok, incr]

theorem checkedSetRange_constOk : (checkedSetRangeFn G).constOk = true := by
  unfold checkedSetRangeFn Fn.constOk
  cases G.B.backing <;> simp [Stmt.all, Stmt.constOk, Expr.constOk, offsetGuard_constOk, lengthGuard_constOk, prot_constOk,
    maskTok, upToTok, srcBitTok, bitSetTok, posTok, protLoop_constOk, storeByteBitTok, incr]

theorem getRange_constOk : (getRangeFn G).constOk = true := by
  unfold getRangeFn Fn.constOk
  cases G.B.backing <;> simp [Stmt.all, Stmt.constOk, Expr.constOk, offsetGuard_constOk, lengthGuard_constOk, prot_constOk,
    returnZero_constOk, maskTok, upToTok, bitSetTok, posTok, isProtTok, resBitTok, incr]

theorem checkedGetRange_constOk : (checkedGetRangeFn G).constOk = true := by
  unfold checkedGetRangeFn Fn.constOk
  cases G.B.backing <;> simp [Stmt.all, Stmt.constOk, Expr.constOk, offsetGuard_constOk, lengthGuard_constOk, prot_constOk,
    maskTok, upToTok, posTok, protLoop_constOk, resBitTok, incr]

end Guarded

theorem featureFns_constOk {G : Gen} (hg : G.ignored = false) (hu : Unboxed G.B) (ft : Feature) :
    ∀ x ∈ featureFns G ft, inherent x.1 = true → x.2.constOk = true := by
  intro x hx hi
  cases ft with
  | struct => exact absurd hx (by simp [featureFns])
  | constants => exact absurd hx (by simp [featureFns])
  | fromIntoBits =>
    simp only [featureFns] at hx
    cases hb : G.B.backing <;> rw [hb] at hx <;>
      simp only [List.mem_append, List.mem_flatMap, List.mem_map, List.mem_cons, List.not_mem_nil, or_false] at hx
    · rcases hx with ⟨_, _, rfl | rfl⟩ | ⟨_, _, rfl⟩
      · exact from_constOk hu _ _
      · exact from_constOk hu _ _
      · exact into_constOk hu _
    · rcases hx with ((⟨_, _, rfl | rfl⟩ | ⟨_, _, rfl | rfl | rfl | rfl⟩) | ⟨_, _, rfl⟩) | ⟨_, _, rfl | rfl⟩
      · exact from_constOk hu _ _
      · exact from_constOk hu _ _
      · exact fromSlice_constOk hu _ _ _
      · exact fromSlice_constOk hu _ _ _
      · exact checkedFromSlice_constOk hu _ _ _
      · exact checkedFromSlice_constOk hu _ _ _
      · exact into_constOk hu _
      · exact intoSlice_constOk hu hb _
      · exact checkedIntoSlice_constOk hu hb _
  | _ =>
    simp only [featureFns, List.mem_append, List.mem_flatMap, List.mem_map, List.mem_cons, List.not_mem_nil, or_false] at hx
    first
    | (rcases hx with rfl | rfl <;> first | exact newFn_constOk hu _ | exact clear_constOk hu _ | cases hi)
    | (subst hx; cases hi)
    | (obtain ⟨_, _, rfl | rfl⟩ := hx <;> first | exact setter_constOk | exact checkedSetter_constOk)
    | (obtain ⟨_, _, rfl⟩ := hx; exact getter_constOk)
    | (rcases hx with ((rfl | rfl | rfl) | ⟨_, _, rfl | rfl⟩) | rfl <;> first
        | exact builderNew_constOk hu _ | exact with_constOk | exact checkedWith_constOk | rfl | cases hi)
    | (rcases hx with ⟨_, _, rfl | rfl⟩ | rfl <;> first | exact write_constOk _ _ | exact writeDefaults_constOk)
    | (rcases hx with rfl | rfl | rfl | rfl | rfl | rfl | rfl | rfl <;> first
        | exact setBitFn_constOk hg | exact checkedSetBitFn_constOk hg | exact setRange_constOk
        | exact checkedSetRange_constOk | exact getBitFn_constOk hg | exact checkedGetBitFn_constOk hg
        | exact getRange_constOk | exact checkedGetRange_constOk)
    | (rcases hx with ((rfl | rfl) | ⟨_, _, rfl⟩) | ⟨_, _, rfl⟩ <;> first
        | exact clear_constOk hu _ | exact clearField_constOk | exact clearToDefault_constOk)
    | (rcases hx with (rfl | ⟨_, _, rfl⟩) | ⟨_, _, rfl⟩ <;> first
        | exact invert_constOk hu | exact invertField_constOk | exact inverted_constOk)

end Bf.Quote
