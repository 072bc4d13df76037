import Verif.Lemmas.TextFns

/-!
# Reading the conversions
-/

namespace Bf.Text

open Rust Quote

variable {P : Printer} {C : Style}

theorem splice_some (l : List Tok) : Splice.splice (some l) = l := rfl

theorem Seq.cast {a b : List Tok} {A B : List SStmt} (h : Seq a A) (e : a = b) (e' : A = B) : Seq b B := e ▸ e' ▸ h

theorem stmtSyn_all_two (C : Style) (a b : Stmt) : stmtSyn C (.all [a, b]) = stmtSyn C a ++ stmtSyn C b :=
  congrArg _ (List.append_nil _)

theorem seq_mutThis (h : Fits P C) : Seq (let i := initTokens P false; quote! "let mut this = #i;")
    (stmtSyn C (initTok P.B false)) := seq_init h false (some [.kw .mut_]) true (.inr ⟨rfl, rfl⟩)

theorem param_or (P : Printer) : paramTok P.B = "bits" ∨ paramTok P.B = "bytes" := by
  unfold paramTok
  cases P.B.backing with
  | int _ => exact .inl rfl
  | arr _ => exact .inr rfl

theorem param_eq (P : Printer) : paramTokens P = [.ident (paramTok P.B)] := by
  unfold paramTokens paramTok
  cases P.B.backing <;> rfl

theorem seq_letParam (C : Style) (x : String) (hx : x = "bits" ∨ x = "bytes") :
    Seq (let x := [Tok.ident x]; quote! "let bits = #x;") (stmtSyn C (.letS "bits" none (.var x))) := by
  rcases hx with rfl | rfl <;> seq 1 20

theorem seq_swapParam (C : Style) (x : String) (hx : x = "bits" ∨ x = "bytes") :
    Seq (let x := [Tok.ident x]; quote! "let bits = #x.swap_bytes();")
      (stmtSyn C (.letS "bits" none (.swapBytes (.var x)))) := by
  rcases hx with rfl | rfl <;> seq 1 20

theorem seq_intEndian (C : Style) (e : Endian) : Seq (intEndianTokens e) (stmtSyn C (intEndianTok e)) := by
  cases e with
  | little => seq 1 20
  | big => exact Seq.nil

theorem body_okThis (C : Style) : Body (quote! "Ok(this)") (tailSyn C false (.okE (.whole false))) :=
  Body.mk 20 (fun _ _ => by krfl) (fun _ => trivial)

theorem body_bits (C : Style) : Body (quote! "bits") (tailSyn C false (.var "bits")) :=
  Body.mk 20 (fun _ _ => by krfl) (fun _ => trivial)

/-! ## Writing -/

theorem seq_writeConv (C : Style) (e : Endian) : Seq (writeConvTokens P e) (stmtSyn C (writeConvTok P.B e)) := by
  unfold writeConvTokens writeConvTok
  cases e with
  | big => exact Seq.nil
  | little =>
    cases P.B.backing with
    | int w => seq 1 20
    | arr n => seq 3 40

theorem ret_back (H : Head) (b : Backing) : retSyn H (backTy b) = some (tySyn (backTy b)) := by cases b <;> rfl

theorem stmtSyn_skip (C : Style) : stmtSyn C .skip = [] := rfl

macro "names" "[" xs:Lean.Parser.Tactic.simpLemma,* "]" : tactic => `(tactic| (
  simp only [$xs,*, Printer.members, Printer.fns, endians, List.flatMap_cons, List.flatMap_nil, List.map_cons, List.map_nil,
    List.cons_append, List.nil_append, List.append_nil]
  simp only [fnSyn, tagName, String.reduceAppend, stmtSyn_all_cons, stmtSyn_all_nil, List.map, tail_unit,
    List.nil_append, sig_back, ret_back]
  try simp only [if_true, if_false, Bool.false_eq_true, stmtSyn_skip, List.append_nil, List.nil_append]))

theorem mem_write (h : Fits P C) : Mem (writeTokens P) (P.members C .writeBitOps) := by
  have h1 := fun doc name e => Mem.pub (P := P) P.vis doc name (sg_write P.B.backing (paramTok P.B))
    ((seq_letThis C).body ((seq_letParam C (paramTok P.B) (param_or P)).body ((seq_writeConv (P := P) C e).body
      ((seq_setAll h .readOnly).body Body.nil))))
  have h2 := fun doc name e => Mem.pub (P := P) P.vis doc name (sg_write P.B.backing (paramTok P.B))
    ((seq_letThis C).body ((seq_letParam C (paramTok P.B) (param_or P)).body ((seq_writeConv (P := P) C e).body
      ((seq_setAll h .readOnly).body ((seq_defaults h).body Body.nil)))))
  have h3 := Mem.pub (P := P) P.vis "Writes the bitfield defaults." "write_defaults" sg_op
    ((seq_letThis C).body ((seq_defaults h).body Body.nil))
  refine ((h1 ("Writes " ++ bob P ++ " to the bitfield.") ("write_" ++ bob P) P.B.writeEndian).append
    ((h2 ("Writes " ++ bob P ++ " to the bitfield while setting defaults.") ("write_" ++ bob P ++ "_with_defaults")
      P.B.writeEndian).append
    ((h1 ("Writes little-endian " ++ bob P ++ " to the bitfield.") ("write_le_" ++ bob P) .little).append
    ((h2 ("Writes little-endian " ++ bob P ++ " to the bitfield while setting defaults.")
      ("write_le_" ++ bob P ++ "_with_defaults") .little).append
    ((h1 ("Writes big-endian " ++ bob P ++ " to the bitfield.") ("write_be_" ++ bob P) .big).append
    ((h2 ("Writes big-endian " ++ bob P ++ " to the bitfield while setting defaults.")
      ("write_be_" ++ bob P ++ "_with_defaults") .big).append h3)))))).cast ?_ ?_
  · toks [writeTokens, param_eq]
  · names [writeFn, writeDefaultsFn]
    rfl

/-! ## From and into bits -/

theorem mem_fromBits (h : Fits P C) (w : Nat) (hB : P.B.backing = .int w) : Mem (fromBitsTokens P)
    (endians.flatMap fun (s, e) =>
      [.fn (fnSyn C (P.head .none) (.fn ("from_" ++ s ++ "bits")) (fromFn P.B e false)),
       .fn (fnSyn C (P.head .none) (.fn ("from_" ++ s ++ "bits_with_defaults")) (fromFn P.B e true))]) := by
  have h1 := fun doc name conv S (hc : Seq conv S) => Mem.pub (P := P) P.vis doc name
    (sg_from P.B.backing (paramTok P.B) (param_or P))
    (hc.body ((seq_mutThis h).body ((seq_setAll h .none).body (body_this C))))
  have h2 := fun doc name conv S (hc : Seq conv S) => Mem.pub (P := P) P.vis doc name
    (sg_from P.B.backing (paramTok P.B) (param_or P))
    (hc.body ((seq_mutThis h).body ((seq_setAll h .none).body ((seq_defaults h).body (body_this C)))))
  refine ((h1 "Creates a new bitfield instance from the given bits." "from_bits" _ _ ((seq_letParam C (paramTok P.B) (param_or P)).append (seq_intEndian C P.B.fromEndian))).append
    ((h2 "Creates a new bitfield instance from the given bits while respecting defaults." "from_bits_with_defaults" _ _ ((seq_letParam C (paramTok P.B) (param_or P)).append (seq_intEndian C P.B.fromEndian))).append
    ((h1 "Creates a new bitfield instance from the given little-endian bits." "from_le_bits" _ _ (seq_swapParam C (paramTok P.B) (param_or P))).append
    ((h2 "Creates a new bitfield instance from the given little-endian bits while respecting defaults." "from_le_bits_with_defaults" _ _ (seq_swapParam C (paramTok P.B) (param_or P))).append
    ((h1 "Creates a new bitfield instance from the given big-endian bits." "from_be_bits" _ _ (seq_letParam C (paramTok P.B) (param_or P))).append
    (h2 "Creates a new bitfield instance from the given big-endian bits while respecting defaults." "from_be_bits_with_defaults" _ _ (seq_letParam C (paramTok P.B) (param_or P)))))))).cast ?_ ?_
  · toks [fromBitsTokens, param_eq]
  · have hp : paramTok P.B = "bits" := by simp only [paramTok, hB]
    names [fromFn, fromConvTok, hB, hp]
    rfl

theorem mem_intoBits (h : Fits P C) (w : Nat) (hB : P.B.backing = .int w) : Mem (intoBitsTokens P)
    (endians.map fun (s, e) => .fn (fnSyn C (P.head .value) (.fn ("into_" ++ s ++ "bits")) (intoFn P.B e))) := by
  have h1 := fun doc name e => Mem.pub (P := P) P.vis doc name (sg_into P.B.backing)
    ((seq_letThis C).body ((seq_letBits h).body ((seq_intEndian C e).body (body_bits C))))
  refine ((h1 "Returns the bits of the bitfield." "into_bits" P.B.intoEndian).append
    ((h1 "Returns the bits of the bitfield in little-endian order." "into_le_bits" .little).append
    (h1 "Returns the bits of the bitfield in big-endian order." "into_be_bits" .big))).cast ?_ ?_
  · toks [intoBitsTokens]
  · names [intoFn, hB]
    rfl

theorem seq_fromBytesConv (C : Style) (n : Nat) (hB : P.B.backing = .arr n) (e : Option Endian) :
    Seq (fromBytesConvTokens P n (e.getD P.B.fromEndian)) (stmtSyn C (fromConvTok P.B e)) := by
  unfold fromBytesConvTokens fromConvTok
  simp only [param_eq, hB, paramTok]
  cases e.getD P.B.fromEndian with
  | little => seq 1 20
  | big => seq 3 40

theorem mem_fromBytes (h : Fits P C) (n : Nat) (hB : P.B.backing = .arr n) : Mem (fromBytesTokens P n)
    (endians.flatMap fun (s, e) =>
      [.fn (fnSyn C (P.head .none) (.fn ("from_" ++ s ++ "bytes")) (fromFn P.B e false)),
       .fn (fnSyn C (P.head .none) (.fn ("from_" ++ s ++ "bytes_with_defaults")) (fromFn P.B e true))]) := by
  have h1 := fun doc name e => Mem.pub (P := P) P.vis doc name
    (sg_from P.B.backing (paramTok P.B) (param_or P))
    ((seq_fromBytesConv C n hB e).body ((seq_mutThis h).body ((seq_setAll h .none).body (body_this C))))
  have h2 := fun doc name e => Mem.pub (P := P) P.vis doc name
    (sg_from P.B.backing (paramTok P.B) (param_or P))
    ((seq_fromBytesConv C n hB e).body ((seq_mutThis h).body ((seq_setAll h .none).body ((seq_defaults h).body (body_this C)))))
  refine ((h1 "Creates a new bitfield instance from the given bytes." "from_bytes" none).append
    ((h2 "Creates a new bitfield instance from the given bytes while respecting defaults." "from_bytes_with_defaults" none).append
    ((h1 "Creates a new bitfield instance from the given little-endian bytes." "from_le_bytes" (some .little)).append
    ((h2 "Creates a new bitfield instance from the given little-endian bytes while respecting defaults." "from_le_bytes_with_defaults" (some .little)).append
    ((h1 "Creates a new bitfield instance from the given big-endian bytes." "from_be_bytes" (some .big)).append
    (h2 "Creates a new bitfield instance from the given big-endian bytes while respecting defaults." "from_be_bytes_with_defaults" (some .big))))))).cast ?_ ?_
  · toks [fromBytesTokens, param_eq, Option.getD]
  · names [fromFn]
    rfl

/-! ## From and into slices -/

theorem seq_sliceEndian (C : Style) (n : Nat) (e : Endian) : Seq (sliceEndianTokens n e) (stmtSyn C (sliceEndianTok n e)) := by
  cases e with
  | little => exact Seq.nil
  | big => seq 2 40

theorem seq_copyFrom (C : Style) (n : Nat) (hB : P.B.backing = .arr n) : Seq (copyFromTokens P n)
    (stmtSyn C (.letS "bits" (some (.arr n)) (.zeros n) true) ++ (stmtSyn C (.letS "copy_len" none (copyLenTok n)) ++
      stmtSyn C (copyLoopTok "bits" "slice" (.var "copy_len")))) := by
  unfold copyFromTokens
  rw [hB]
  seq 4 40

theorem seq_copyFromExact (C : Style) (n : Nat) (hB : P.B.backing = .arr n) : Seq (copyFromExactTokens P n)
    (stmtSyn C (.letS "bits" (some (.arr n)) (.zeros n) true) ++
      stmtSyn C (copyLoopTok "bits" "slice" (.lit n (some .usize)))) := by
  unfold copyFromExactTokens
  rw [hB]
  seq 3 40

theorem seq_fillCheck (C : Style) (n : Nat) : Seq (fillCheckTokens n) (stmtSyn C (sliceCheckTok n errSliceFill)) := by
  seqIf 1 30

set_option maxRecDepth 4000 in
theorem mem_fromSlice (h : Fits P C) (n : Nat) (hB : P.B.backing = .arr n) : Mem (fromSliceTokens P n)
    (endians.flatMap fun (s, e) =>
      [.fn (fnSyn C (P.head .none) (.fn ("from_" ++ s ++ "slice")) (fromSliceFn P.B n e false)),
       .fn (fnSyn C (P.head .none) (.fn ("from_" ++ s ++ "slice_with_defaults")) (fromSliceFn P.B n e true)),
       .fn (fnSyn C (P.head .none) (.fn ("checked_from_" ++ s ++ "slice")) (checkedFromSliceFn P.B n e false)),
       .fn (fnSyn C (P.head .none) (.fn ("checked_from_" ++ s ++ "slice_with_defaults"))
         (checkedFromSliceFn P.B n e true))]) := by
  have h1 := fun doc name e => Mem.pub (P := P) P.vis doc name sg_slice
    ((seq_copyFrom C n hB).body ((seq_sliceEndian C n e).body ((seq_mutThis h).body ((seq_setAll h .none).body
      (body_this C)))))
  have h2 := fun doc name e => Mem.pub (P := P) P.vis doc name sg_slice
    ((seq_copyFrom C n hB).body ((seq_sliceEndian C n e).body ((seq_mutThis h).body ((seq_setAll h .none).body
      ((seq_defaults h).body (body_this C))))))
  have h3 := fun doc name e => Mem.pub (P := P) P.vis doc name sg_checkedSlice
    ((seq_fillCheck C n).body ((seq_copyFromExact C n hB).body ((seq_sliceEndian C n e).body ((seq_mutThis h).body
      ((seq_setAll h .none).body (body_okThis C))))))
  have h4 := fun doc name e => Mem.pub (P := P) P.vis doc name sg_checkedSlice
    ((seq_fillCheck C n).body ((seq_copyFromExact C n hB).body ((seq_sliceEndian C n e).body ((seq_mutThis h).body
      ((seq_setAll h .none).body ((seq_defaults h).body (body_okThis C)))))))
  refine ((h1 "Creates a new bitfield instance from the given byte slice. If the slice is shorter than the bitfield, the remaining bytes are treated as zero." "from_slice" P.B.fromEndian).append
    ((h2 "Creates a new bitfield instance from the given byte slice while respecting defaults. If the slice is shorter than the bitfield, the remaining bytes are treated as zero." "from_slice_with_defaults" P.B.fromEndian).append
    ((h3 "Creates a new bitfield instance from the given byte slice. Returns an error if the slice is too small to fill the bitfield." "checked_from_slice" P.B.fromEndian).append
    ((h4 "Creates a new bitfield instance from the given byte slice while respecting defaults. Returns an error if the slice is too small to fill the bitfield." "checked_from_slice_with_defaults" P.B.fromEndian).append
    ((h1 "Creates a new bitfield instance from the given little-endian byte slice. If the slice is shorter than the bitfield, the remaining bytes are treated as zero." "from_le_slice" .little).append
    ((h2 "Creates a new bitfield instance from the given little-endian byte slice while respecting defaults. If the slice is shorter than the bitfield, the remaining bytes are treated as zero." "from_le_slice_with_defaults" .little).append
    ((h3 "Creates a new bitfield instance from the given little-endian byte slice. Returns an error if the slice is too small to fill the bitfield." "checked_from_le_slice" .little).append
    ((h4 "Creates a new bitfield instance from the given little-endian byte slice while respecting defaults. Returns an error if the slice is too small to fill the bitfield." "checked_from_le_slice_with_defaults" .little).append
    ((h1 "Creates a new bitfield instance from the given big-endian byte slice. If the slice is shorter than the bitfield, the remaining bytes are treated as zero." "from_be_slice" .big).append
    ((h2 "Creates a new bitfield instance from the given big-endian byte slice while respecting defaults. If the slice is shorter than the bitfield, the remaining bytes are treated as zero." "from_be_slice_with_defaults" .big).append
    ((h3 "Creates a new bitfield instance from the given big-endian byte slice. Returns an error if the slice is too small to fill the bitfield." "checked_from_be_slice" .big).append
    (h4 "Creates a new bitfield instance from the given big-endian byte slice while respecting defaults. Returns an error if the slice is too small to fill the bitfield." "checked_from_be_slice_with_defaults" .big)))))))))))).cast ?_ ?_
  · toks [fromSliceTokens]
  · names [fromSliceFn, checkedFromSliceFn]
    simp only [List.append_assoc]
    rfl

theorem body_intoBytes (h : Fits P C) (n : Nat) (hB : P.B.backing = .arr n) (e : Option Endian) :
    Body (quote! "let this = self;" ++ intoBytesConvTokens P n (e.getD P.B.intoEndian))
      (stmtSyn C (intoFn P.B e).body ++ tailSyn C false (intoFn P.B e).tail) := by
  open_style h
  clear huser
  simp only [] at hB
  cases hB
  unfold intoBytesConvTokens intoFn innerArrTok
  simp only []
  cases e.getD ie <;> cases hp <;> cases ig <;> exact Body.mk 40 (fun _ _ => by krfl) (fun _ => trivial)

theorem mem_intoBytes (h : Fits P C) (n : Nat) (hB : P.B.backing = .arr n) : Mem (intoBytesTokens P n)
    (endians.map fun (s, e) => .fn (fnSyn C (P.head .ref) (.fn ("into_" ++ s ++ "bytes")) (intoFn P.B e))) := by
  have h1 := fun doc name e => Mem.pub (P := P) P.vis doc name (sg_intoRef P.B.backing) (body_intoBytes h n hB e)
  refine ((h1 "Returns the bytes of the bitfield." "into_bytes" none).append
    ((h1 "Returns the bytes of the bitfield in little-endian order." "into_le_bytes" (some .little)).append
    (h1 "Returns the bytes of the bitfield in big-endian order." "into_be_bytes" (some .big)))).cast ?_ ?_
  · toks [intoBytesTokens, Option.getD]
  · simp only [endians, List.map_cons, List.map_nil, List.cons_append, List.nil_append, fnSyn, tagName, String.reduceAppend,
      show ∀ e, (intoFn P.B e).ret = backTy P.B.backing from fun _ => rfl, ret_back]
    rfl

theorem seq_sliceBits (h : Fits P C) (n : Nat) (e : Endian) :
    Seq (sliceBitsTokens P n e) (stmtSyn C (sliceBitsTok P.B n e)) := by
  open_style h
  unfold sliceBitsTokens sliceBitsTok innerArrTok
  simp only []
  cases e with
  | little => cases hp <;> cases ig <;> seq 1 20
  | big => cases hp <;> cases ig <;> seq 3 40

theorem seq_copyTo (C : Style) (n : Nat) : Seq (copyToTokens n)
    (stmtSyn C (.letS "copy_len" none (copyLenTok n)) ++ stmtSyn C (copyLoopTok "slice" "bits" (.var "copy_len"))) := by
  seq 3 40

theorem seq_copyToExact (C : Style) (n : Nat) : Seq (copyToExactTokens n)
    (stmtSyn C (copyLoopTok "slice" "bits" (.lit n (some .usize)))) := by
  seq 2 40

theorem seq_holdCheck (C : Style) (n : Nat) : Seq (holdCheckTokens n) (stmtSyn C (sliceCheckTok n errSliceHold)) := by
  seqIf 1 30

theorem mem_intoSlice (h : Fits P C) (n : Nat) : Mem (intoSliceTokens P n)
    (endians.flatMap fun (s, e) =>
      [.fn (fnSyn C (P.head .ref true) (.fn ("into_" ++ s ++ "slice")) (intoSliceFn P.B n e)),
       .fn (fnSyn C (P.head .ref true) (.fn ("checked_into_" ++ s ++ "slice")) (checkedIntoSliceFn P.B n e))]) := by
  have h1 := fun doc name e => Mem.pub (P := P) P.vis doc name sg_intoSlice
    ((seq_letThis C).body ((seq_sliceBits h n e).body ((seq_copyTo C n).body Body.nil)))
  have h2 := fun doc name e => Mem.pub (P := P) P.vis doc name sg_checkedInto
    ((seq_letThis C).body ((seq_holdCheck C n).body ((seq_sliceBits h n e).body ((seq_copyToExact C n).body
      (body_okUnit C)))))
  refine ((h1 "Writes the bitfield bytes into the provided slice. If the slice is shorter than the bitfield only the bytes that fit are written." "into_slice" P.B.intoEndian).append
    ((h2 "Writes the bitfield bytes into the provided slice. Returns an error if the slice is too small to hold the entire bitfield." "checked_into_slice" P.B.intoEndian).append
    ((h1 "Writes the bitfield bytes in little-endian order into the provided slice. If the slice is shorter than the bitfield only the bytes that fit are written." "into_le_slice" .little).append
    ((h2 "Writes the bitfield bytes in little-endian order into the provided slice. Returns an error if the slice is too small to hold the entire bitfield." "checked_into_le_slice" .little).append
    ((h1 "Writes the bitfield bytes in big-endian order into the provided slice. If the slice is shorter than the bitfield only the bytes that fit are written." "into_be_slice" .big).append
    (h2 "Writes the bitfield bytes in big-endian order into the provided slice. Returns an error if the slice is too small to hold the entire bitfield." "checked_into_be_slice" .big)))))).cast ?_ ?_
  · toks [intoSliceTokens]
  · names [intoSliceFn, checkedIntoSliceFn]
    rfl

theorem mem_fromInto (h : Fits P C) : Mem (fromIntoTokens P) (P.members C .fromIntoBits) := by
  cases hB : P.B.backing with
  | int w =>
    refine ((mem_fromBits h w hB).append (mem_intoBits h w hB)).cast ?_ ?_
    · toks [fromIntoTokens, hB]
    · simp only [Printer.members, Printer.fns, hB, endians, List.flatMap_cons, List.flatMap_nil, List.map_cons, List.map_nil,
        List.cons_append, List.nil_append, List.append_nil]
  | arr n =>
    refine ((mem_fromBytes h n hB).append ((mem_fromSlice h n hB).append ((mem_intoBytes h n hB).append
      (mem_intoSlice h n)))).cast ?_ ?_
    · toks [fromIntoTokens, hB]
    · simp only [Printer.members, Printer.fns, hB, endians, List.flatMap_cons, List.flatMap_nil, List.map_cons, List.map_nil,
        List.cons_append, List.nil_append, List.append_nil]

end Bf.Text
