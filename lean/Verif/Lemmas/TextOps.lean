import Verif.Lemmas.TextConv

/-!
# Reading the bit and range operations
-/

namespace Bf.Text

open Rust Quote

set_option maxRecDepth 6000
set_option linter.unusedVariables false

variable {P : Printer} {C : Style}

/-! ## Guards -/

/-- What a guard does. -/
def guardStmt (B : Bitfield) : Guard → Stmt
  | .returnFalse => .ret (.bool false)
  | .noOp => .ret .unit
  | .returnZero => returnZeroTok B
  | .offsetError => .ret (.errE errOffset)
  | .lengthError => .ret (.errE errLength)
  | .writeError => .ret (.errE errWrite)
  | .readError => .ret (.errE errRead)

theorem seq_offsetGuard (P : Printer) (C : Style) (g : Guard) :
    Seq (offsetGuardTokens P g) (stmtSyn C (offsetGuardTok P.B (guardStmt P.B g))) := by
  obtain ⟨⟨bk, flds, fe, ie, we, hp⟩, nm, vs, ats, ig, args, df, fv, cm⟩ := P
  cases bk <;> cases g <;> seqIf 1 40

theorem seq_lengthGuard (P : Printer) (C : Style) (g : Guard) :
    Seq (lengthGuardTokens P g) (stmtSyn C (lengthGuardTok P.B (guardStmt P.B g))) := by
  obtain ⟨⟨bk, flds, fe, ie, we, hp⟩, nm, vs, ats, ig, args, df, fv, cm⟩ := P
  cases bk <;> cases g <;> seqIf 1 40

theorem seq_fieldGuard (P : Printer) (C : Style) (g : Guard) (read : Bool) :
    Seq (fieldGuardTokens P g read) (stmtSyn C (fieldGuardTok P.G read (guardStmt P.B g))) := by
  refine Seq.joined _ _ _ C fun f _ => ?_
  obtain ⟨⟨bk, flds, fe, ie, we, hp⟩, nm, vs, ats, ig, args, df, fv, cm⟩ := P
  cases ig <;> cases bk <;> cases g <;> seqIf 1 40

/-! ## Writing -/

theorem stmtSyn_all (C : Style) (s : Stmt) (ss : List Stmt) : stmtSyn C (.all (s :: ss)) = stmtSyn C s ++ stmtSyn C (.all ss) :=
  rfl

theorem seq_storeBit (h : Fits P C) : Seq (let i := innerTokens P false; 
      quote! "if bit { #i = (#i & !(1 << offset)) | (1 << offset); } else { #i &= !(1 << offset); }")
    (stmtSyn C (storeBitTok (.var "bit") (.var "offset") false)) := by
  open_style h
  cases ig <;> seq 1 40

theorem seq_storeByteBit (h : Fits P C) : Seq (let i := innerTokens P false; 
      quote! "let byte_idx = offset / 8; let bit_in_byte = offset % 8; if bit { #i[byte_idx as usize] |= 1 << bit_in_byte; } else { #i[byte_idx as usize] &= !(1 << bit_in_byte); }")
    (stmtSyn C (.all
      [.letS "byte_idx" none (.bin .div (.var "offset") (.lit 8 none)),
       .letS "bit_in_byte" none (.bin .rem (.var "offset") (.lit 8 none)),
       storeByteBitTok (.var "bit") (.cast (.var "byte_idx") .usize) (.var "bit_in_byte") false])) := by
  open_style h
  cases ig <;> seq 3 50

theorem seq_rangeMask (h : Fits P C) (w : Nat) (hB : P.B.backing = .int w) : Seq (let t := backTokens P.B.backing
      quote! "let range_mask = (#t::MAX >> (#t::BITS - length)) << offset;")
    (stmtSyn C (.letS "range_mask" none (.bin .shl (maskTok w (.var "length")) (.var "offset")))) := by
  open_style h
  cases hB
  seq 1 40

theorem seq_setRange (h : Fits P C) : Seq (let i := innerTokens P false; 
      quote! "let writable_mask = range_mask & !protected_mask; #i = (#i & !writable_mask) | ((value << offset) & writable_mask);")
    (stmtSyn C (.letS "writable_mask" none (.bin .and (.var "range_mask") (.not (.var "protected_mask")))) ++
      stmtSyn C (.assignInner false none
        (.bin .or (.bin .and (.inner false) (.not (.var "writable_mask")))
          (.bin .and (.bin .shl (.var "value") (.var "offset")) (.var "writable_mask"))))) := by
  open_style h
  cases ig <;> seq 2 40

theorem seq_mask (h : Fits P C) (w : Nat) (hB : P.B.backing = .int w) : Seq (let t := backTokens P.B.backing
      quote! "let mask = #t::MAX >> (#t::BITS - length);")
    (stmtSyn C (.letS "mask" none (maskTok w (.var "length")))) := by
  open_style h
  cases hB
  seq 1 40

theorem seq_checkedSetRange (h : Fits P C) : Seq (let i := innerTokens P false; 
      quote! "let range_mask = mask << offset; if range_mask & protected_mask != 0 { return Err(\"Attempted to write to non-writable bit(s).\"); } #i = (#i & !(mask << offset)) | ((value & mask) << offset);")
    (stmtSyn C (.letS "range_mask" none (.bin .shl (.var "mask") (.var "offset"))) ++
      (stmtSyn C (.ite (.bin .ne (.bin .and (.var "range_mask") (.var "protected_mask")) (.lit 0 none))
            (.ret (.errE errWrite)) .skip) ++
      stmtSyn C (.assignInner false none
            (.bin .or (.bin .and (.inner false) (.not (.bin .shl (.var "mask") (.var "offset"))))
              (.bin .shl (.bin .and (.var "value") (.var "mask")) (.var "offset")))))) := by
  open_style h
  cases ig <;> seq 3 40

theorem mem_setOpsInt (h : Fits P C) (w : Nat) (hB : P.B.backing = .int w) : Mem (setOpsTokens P)
    [.fn (fnSyn C (P.head .refMut) (.fn "set_bit") (setBitFn P.G)),
     .fn (fnSyn C (P.head .refMut) (.fn "checked_set_bit") (checkedSetBitFn P.G)),
     .fn (fnSyn C (P.head .refMut) (.fn "set_bits_range") (setRangeFn P.G)),
     .fn (fnSyn C (P.head .refMut) (.fn "checked_set_bits_range") (checkedSetRangeFn P.G))] := by
  have h1 := Mem.pub (P := P) P.vis "Sets a bit in the bitfield." "set_bit" sg_setBit
    ((seq_letThis C).body ((seq_offsetGuard P C .noOp).body ((seq_fieldGuard P C .noOp false).body
      ((seq_storeBit h).body Body.nil))))
  have h2 := Mem.pub (P := P) P.vis "Sets a bit in the bitfield. Returns an error if the offset is outside the bitfield range." "checked_set_bit" sg_checkedSetBit
    ((seq_letThis C).body ((seq_offsetGuard P C .offsetError).body ((seq_fieldGuard P C .writeError false).body
      ((seq_storeBit h).body (body_okUnit C)))))
  have h3 := Mem.pub (P := P) P.vis "Sets bits in the bitfield starting from the offset to the length with the provided value." "set_bits_range" (sg_setRange P.B.backing)
    ((seq_letThis C).body ((seq_offsetGuard P C .noOp).body ((seq_lengthGuard P C .noOp).body
      ((seq_rangeMask h w hB).body ((seq_prot (P := P) (C := C) .readOnly).body ((seq_setRange h).body Body.nil))))))
  have h4 := Mem.pub (P := P) P.vis "Sets bits in the bitfield starting from the offset to the length with the provided value. Returns an error if the offset and length is outside the bitfield range, if the value is too large for the length, or if any bit in the range is non-writable." "checked_set_bits_range" (sg_checkedSetRange P.B.backing)
    ((seq_letThis C).body ((seq_offsetGuard P C .offsetError).body ((seq_lengthGuard P C .lengthError).body
      ((seq_mask h w hB).body ((seq_prot (P := P) (C := C) .readOnly).body ((seq_checkedSetRange h).body (body_okUnit C)))))))
  refine (h1.append (h2.append (h3.append h4))).cast ?_ ?_
  · toks [setOpsTokens, hB]
  · fn [setBitFn, checkedSetBitFn, setBitTok, setRangeFn, checkedSetRangeFn, show P.G.B = P.B from rfl, hB, sig_back,
      List.cons_append, List.append_assoc]
    rfl

theorem seq_setBytes (h : Fits P C) : Seq (let i := innerTokens P false; 
      quote! "let mut i = 0u32;
          while i < length {
              let bit_val = ((value[(i / 8) as usize] >> (i % 8)) & 1) != 0;
              let dst_bit = offset + i;
              let dst_byte_idx = (dst_bit / 8) as usize;
              let dst_bit_in_byte = dst_bit % 8;
              let is_protected = (protected_mask[dst_byte_idx] >> dst_bit_in_byte) & 1 != 0;
              if !is_protected {
                  if bit_val {
                      #i[dst_byte_idx] |= 1 << dst_bit_in_byte;
                  } else {
                      #i[dst_byte_idx] &= !(1 << dst_bit_in_byte);
                  }
              }
              i += 1;
          }")
    (stmtSyn C (upToTok
            [srcBitTok, posTok "dst_bit" "dst_byte_idx" "dst_bit_in_byte",
             isProtTok "dst_byte_idx" "dst_bit_in_byte",
             .ite (.not (.var "is_protected"))
               (storeByteBitTok (.var "bit_val") (.var "dst_byte_idx") (.var "dst_bit_in_byte") false)
               .skip])) := by
  open_style h
  cases ig <;> seq 2 60

theorem seq_checkedSetBytes (h : Fits P C) : Seq (let i := innerTokens P false; 
      quote! "let mut i = 0u32;
          while i < length {
              let dst_bit = offset + i;
              let dst_byte_idx = (dst_bit / 8) as usize;
              let dst_bit_in_byte = dst_bit % 8;
              let is_protected = (protected_mask[dst_byte_idx] >> dst_bit_in_byte) & 1 != 0;
              if is_protected {
                  return Err(\"Attempted to write to non-writable bit(s).\");
              }
              i += 1;
          }
          let mut i = 0u32;
          while i < length {
              let bit_val = ((value[(i / 8) as usize] >> (i % 8)) & 1) != 0;
              let dst_bit = offset + i;
              let dst_byte_idx = (dst_bit / 8) as usize;
              let dst_bit_in_byte = dst_bit % 8;
              if bit_val {
                  #i[dst_byte_idx] |= 1 << dst_bit_in_byte;
              } else {
                  #i[dst_byte_idx] &= !(1 << dst_bit_in_byte);
              }
              i += 1;
          }")
    (stmtSyn C (protLoopTok "dst_bit" "dst_byte_idx" "dst_bit_in_byte" errWrite) ++
          stmtSyn C (upToTok
            [srcBitTok, posTok "dst_bit" "dst_byte_idx" "dst_bit_in_byte",
             storeByteBitTok (.var "bit_val") (.var "dst_byte_idx") (.var "dst_bit_in_byte") false])) := by
  open_style h
  cases ig <;> seq 4 60

set_option maxRecDepth 4000 in
theorem mem_setOpsArr (h : Fits P C) (n : Nat) (hB : P.B.backing = .arr n) : Mem (setOpsTokens P)
    [.fn (fnSyn C (P.head .refMut) (.fn "set_bit") (setBitFn P.G)),
     .fn (fnSyn C (P.head .refMut) (.fn "checked_set_bit") (checkedSetBitFn P.G)),
     .fn (fnSyn C (P.head .refMut) (.fn "set_bytes_range") (setRangeFn P.G)),
     .fn (fnSyn C (P.head .refMut) (.fn "checked_set_bytes_range") (checkedSetRangeFn P.G))] := by
  have h1 := Mem.pub (P := P) P.vis "Sets a bit in the bitfield." "set_bit" sg_setBit
    ((seq_letThis C).body ((seq_offsetGuard P C .noOp).body ((seq_fieldGuard P C .noOp false).body
      ((seq_storeByteBit h).body Body.nil))))
  have h2 := Mem.pub (P := P) P.vis "Sets a bit in the bitfield. Returns an error if the offset is outside the bitfield range." "checked_set_bit" sg_checkedSetBit
    ((seq_letThis C).body ((seq_offsetGuard P C .offsetError).body ((seq_fieldGuard P C .writeError false).body
      ((seq_storeByteBit h).body (body_okUnit C)))))
  have h3 := Mem.pub (P := P) P.vis "Sets bytes in the bitfield starting from the offset to the length with the provided value." "set_bytes_range" (sg_setRange P.B.backing)
    ((seq_letThis C).body ((seq_offsetGuard P C .noOp).body ((seq_lengthGuard P C .noOp).body
      ((seq_prot (P := P) (C := C) .readOnly).body ((seq_setBytes h).body Body.nil)))))
  have h4 := Mem.pub (P := P) P.vis "Sets bytes in the bitfield starting from the offset to the length with the provided value. Returns an error if the offset and length is outside the bitfield range, if the value is too large for the length, or if any bit in the range is non-writable." "checked_set_bytes_range" (sg_checkedSetRange P.B.backing)
    ((seq_letThis C).body ((seq_offsetGuard P C .offsetError).body ((seq_lengthGuard P C .lengthError).body
      ((seq_prot (P := P) (C := C) .readOnly).body ((seq_checkedSetBytes h).body (body_okUnit C))))))
  refine (h1.append (h2.append (h3.append h4))).cast ?_ ?_
  · toks [setOpsTokens, hB]
  · fn [setBitFn, checkedSetBitFn, setBitTok, setRangeFn, checkedSetRangeFn, show P.G.B = P.B from rfl, hB, sig_back,
      List.cons_append, List.append_assoc]
    rfl

/-! ## Reading -/

theorem body_getBit (h : Fits P C) : Body (let i := innerTokens P false; 
      quote! "(#i >> offset) & 1 != 0")
    (tailSyn C false (.bin .ne (.bin .and (.bin .shr (.inner false) (.var "offset")) (.lit 1 none)) (.lit 0 none))) := by
  open_style h
  cases ig <;> exact Body.mk 30 (fun _ _ => by krfl) (fun _ => trivial)

theorem body_okGetBit (h : Fits P C) : Body (let i := innerTokens P false; 
      quote! "Ok((#i >> offset) & 1 != 0)")
    (tailSyn C false (.okE (.bin .ne (.bin .and (.bin .shr (.inner false) (.var "offset")) (.lit 1 none)) (.lit 0 none)))) := by
  open_style h
  cases ig <;> exact Body.mk 30 (fun _ _ => by krfl) (fun _ => trivial)

theorem body_getRange (h : Fits P C) : Body (let i := innerTokens P false; 
      quote! "((#i >> offset) & mask) & readable_mask")
    (tailSyn C false (.bin .and (.bin .and (.bin .shr (.inner false) (.var "offset")) (.var "mask")) (.var "readable_mask"))) := by
  open_style h
  cases ig <;> exact Body.mk 30 (fun _ _ => by krfl) (fun _ => trivial)

theorem body_okGetRange (h : Fits P C) : Body (let i := innerTokens P false; 
      quote! "Ok((#i >> offset) & mask)")
    (tailSyn C false (.okE (.bin .and (.bin .shr (.inner false) (.var "offset")) (.var "mask")))) := by
  open_style h
  cases ig <;> exact Body.mk 30 (fun _ _ => by krfl) (fun _ => trivial)

theorem seq_getRange (C : Style) : Seq (quote! "let shifted_protected_mask = (protected_mask >> offset) & mask;
          let readable_mask = mask & !shifted_protected_mask;")
    (stmtSyn C (.letS "shifted_protected_mask" none
            (.bin .and (.bin .shr (.var "protected_mask") (.var "offset")) (.var "mask"))) ++
      stmtSyn C (.letS "readable_mask" none (.bin .and (.var "mask") (.not (.var "shifted_protected_mask"))))) := by
  seq 2 30

theorem seq_checkedGetRange (C : Style) : Seq (quote! "let range_mask = mask << offset;
          if range_mask & protected_mask != 0 {
              return Err(\"Attempted to read from non-readable bit(s).\");
          }")
    (stmtSyn C (.letS "range_mask" none (.bin .shl (.var "mask") (.var "offset"))) ++
      stmtSyn C (.ite (.bin .ne (.bin .and (.var "range_mask") (.var "protected_mask")) (.lit 0 none))
            (.ret (.errE errRead)) .skip)) := by
  seqIf 2 40

theorem mem_getOpsInt (h : Fits P C) (w : Nat) (hB : P.B.backing = .int w) : Mem (getOpsTokens P)
    [.fn (fnSyn C (P.head .ref) (.fn "get_bit") (getBitFn P.G)),
     .fn (fnSyn C (P.head .ref) (.fn "checked_get_bit") (checkedGetBitFn P.G)),
     .fn (fnSyn C (P.head .ref) (.fn "get_bits_range") (getRangeFn P.G)),
     .fn (fnSyn C (P.head .ref) (.fn "checked_get_bits_range") (checkedGetRangeFn P.G))] := by
  have h1 := Mem.pub (P := P) P.vis "Returns a bit from the bitfield." "get_bit" sg_getBit
    ((seq_letThis C).body ((seq_offsetGuard P C .returnFalse).body ((seq_fieldGuard P C .returnFalse true).body
      (body_getBit h))))
  have h2 := Mem.pub (P := P) P.vis "Returns a bit from the bitfield. Returns an error if the offset is outside the bitfield range." "checked_get_bit" sg_checkedGetBit
    ((seq_letThis C).body ((seq_offsetGuard P C .offsetError).body ((seq_fieldGuard P C .readError true).body
      (body_okGetBit h))))
  have h3 := Mem.pub (P := P) P.vis "Returns bits from the bitfield." "get_bits_range" (sg_getRange P.B.backing)
    ((seq_letThis C).body ((seq_offsetGuard P C .returnZero).body ((seq_lengthGuard P C .returnZero).body
      ((seq_mask h w hB).body ((seq_prot (P := P) (C := C) .writeOnly).body ((seq_getRange C).body (body_getRange h)))))))
  have h4 := Mem.pub (P := P) P.vis "Returns bits from the bitfield starting from the offset to the length. Returns an error if the offset and length is outside the bitfield range or if any bit in the range is non-readable." "checked_get_bits_range" (sg_checkedGetRange P.B.backing)
    ((seq_letThis C).body ((seq_offsetGuard P C .offsetError).body ((seq_lengthGuard P C .lengthError).body
      ((seq_mask h w hB).body ((seq_prot (P := P) (C := C) .writeOnly).body ((seq_checkedGetRange C).body
        (body_okGetRange h)))))))
  refine (h1.append (h2.append (h3.append h4))).cast ?_ ?_
  · toks [getOpsTokens, hB]
  · fn [getBitFn, checkedGetBitFn, bitIndexTok, getBitTok, getRangeFn, checkedGetRangeFn, show P.G.B = P.B from rfl, hB,
      sig_back, ret_back, List.cons_append, List.append_assoc, stmtSyn_skip]
    rfl

theorem seq_bitIndex (C : Style) : Seq (quote! "let byte_idx = offset / 8; let bit_in_byte = offset % 8;")
    (stmtSyn C (.all
      [.letS "byte_idx" none (.bin .div (.var "offset") (.lit 8 none)),
       .letS "bit_in_byte" none (.bin .rem (.var "offset") (.lit 8 none))])) := by
  seq 2 30

theorem body_res (C : Style) : Body (quote! "res") (tailSyn C false (.var "res")) :=
  Body.mk 20 (fun _ _ => by krfl) (fun _ => trivial)

theorem body_okRes (C : Style) : Body (quote! "Ok(res)") (tailSyn C false (.okE (.var "res"))) :=
  Body.mk 20 (fun _ _ => by krfl) (fun _ => trivial)

theorem body_getByteBit (h : Fits P C) : Body (let i := innerTokens P false; 
      quote! "(#i[byte_idx as usize] >> bit_in_byte) & 1 != 0")
    (tailSyn C false (.bin .ne (.bin .and (.bin .shr (.index (.inner false) (.cast (.var "byte_idx") .usize)) (.var "bit_in_byte")) (.lit 1 none)) (.lit 0 none))) := by
  open_style h
  cases ig <;> exact Body.mk 30 (fun _ _ => by krfl) (fun _ => trivial)

theorem body_okGetByteBit (h : Fits P C) : Body (let i := innerTokens P false; 
      quote! "Ok((#i[byte_idx as usize] >> bit_in_byte) & 1 != 0)")
    (tailSyn C false (.okE (.bin .ne (.bin .and (.bin .shr (.index (.inner false) (.cast (.var "byte_idx") .usize)) (.var "bit_in_byte")) (.lit 1 none)) (.lit 0 none)))) := by
  open_style h
  cases ig <;> exact Body.mk 30 (fun _ _ => by krfl) (fun _ => trivial)

theorem seq_getBytes (h : Fits P C) (n : Nat) (hB : P.B.backing = .arr n) : Seq (let i := innerTokens P false; let t := backTokens P.B.backing; let array_len := usize P.length
      quote! "let mut res: #t = [0; #array_len];
          let mut i = 0u32;
          while i < length {
              let src_bit = offset + i;
              let src_byte = (src_bit / 8) as usize;
              let src_bit_in_byte = src_bit % 8;
              let is_protected = (protected_mask[src_byte] >> src_bit_in_byte) & 1 != 0;
              if !is_protected {
                  let bit_val = (#i[src_byte] >> src_bit_in_byte) & 1;
                  let dst_byte = (i / 8) as usize;
                  let dst_bit_in_byte = i % 8;
                  res[dst_byte] |= bit_val << dst_bit_in_byte;
              }
              i += 1;
          }")
    (stmtSyn C (.letS "res" (some (.arr n)) (.zeros n) true) ++ stmtSyn C (upToTok
            [posTok "src_bit" "src_byte" "src_bit_in_byte", isProtTok "src_byte" "src_bit_in_byte",
             .ite (.not (.var "is_protected")) (.all resBitTok) .skip])) := by
  open_style h
  cases hB
  cases ig <;> seq 3 60

theorem seq_checkedGetBytes (h : Fits P C) (n : Nat) (hB : P.B.backing = .arr n) : Seq (let i := innerTokens P false; let t := backTokens P.B.backing; let array_len := usize P.length
      quote! "let mut i = 0u32;
          while i < length {
              let src_bit = offset + i;
              let src_byte = (src_bit / 8) as usize;
              let src_bit_in_byte = src_bit % 8;
              let is_protected = (protected_mask[src_byte] >> src_bit_in_byte) & 1 != 0;
              if is_protected {
                  return Err(\"Attempted to read from non-readable bit(s).\");
              }
              i += 1;
          }
          let mut res: #t = [0; #array_len];
          let mut i = 0u32;
          while i < length {
              let src_bit = offset + i;
              let src_byte = (src_bit / 8) as usize;
              let src_bit_in_byte = src_bit % 8;
              let bit_val = (#i[src_byte] >> src_bit_in_byte) & 1;
              let dst_byte = (i / 8) as usize;
              let dst_bit_in_byte = i % 8;
              res[dst_byte] |= bit_val << dst_bit_in_byte;
              i += 1;
          }")
    (stmtSyn C (protLoopTok "src_bit" "src_byte" "src_bit_in_byte" errRead) ++
       (stmtSyn C (.letS "res" (some (.arr n)) (.zeros n) true) ++
        stmtSyn C (upToTok (posTok "src_bit" "src_byte" "src_bit_in_byte" :: resBitTok)))) := by
  open_style h
  cases hB
  cases ig <;> seq 5 60

set_option maxRecDepth 4000 in
theorem mem_getOpsArr (h : Fits P C) (n : Nat) (hB : P.B.backing = .arr n) : Mem (getOpsTokens P)
    [.fn (fnSyn C (P.head .ref) (.fn "get_bit") (getBitFn P.G)),
     .fn (fnSyn C (P.head .ref) (.fn "checked_get_bit") (checkedGetBitFn P.G)),
     .fn (fnSyn C (P.head .ref) (.fn "get_bytes_range") (getRangeFn P.G)),
     .fn (fnSyn C (P.head .ref) (.fn "checked_get_bytes_range") (checkedGetRangeFn P.G))] := by
  have h1 := Mem.pub (P := P) P.vis "Returns a bit from the bitfield." "get_bit" sg_getBit
    ((seq_letThis C).body ((seq_offsetGuard P C .returnFalse).body ((seq_fieldGuard P C .returnFalse true).body
      ((seq_bitIndex C).body (body_getByteBit h)))))
  have h2 := Mem.pub (P := P) P.vis "Returns a bit from the bitfield. Returns an error if the offset is outside the bitfield range." "checked_get_bit" sg_checkedGetBit
    ((seq_letThis C).body ((seq_offsetGuard P C .offsetError).body ((seq_fieldGuard P C .readError true).body
      ((seq_bitIndex C).body (body_okGetByteBit h)))))
  have h3 := Mem.pub (P := P) P.vis "Returns bytes from the bitfield." "get_bytes_range" (sg_getRange P.B.backing)
    ((seq_letThis C).body ((seq_offsetGuard P C .returnZero).body ((seq_lengthGuard P C .returnZero).body
      ((seq_prot (P := P) (C := C) .writeOnly).body ((seq_getBytes h n hB).body (body_res C))))))
  have h4 := Mem.pub (P := P) P.vis "Returns bytes from the bitfield starting from the offset to the length. Returns an error if the offset and length is outside the bitfield range or if any bit in the range is non-readable." "checked_get_bytes_range" (sg_checkedGetRange P.B.backing)
    ((seq_letThis C).body ((seq_offsetGuard P C .offsetError).body ((seq_lengthGuard P C .lengthError).body
      ((seq_prot (P := P) (C := C) .writeOnly).body ((seq_checkedGetBytes h n hB).body (body_okRes C))))))
  refine (h1.append (h2.append (h3.append h4))).cast ?_ ?_
  · toks [getOpsTokens, hB]
  · fn [getBitFn, checkedGetBitFn, bitIndexTok, getBitTok, getRangeFn, checkedGetRangeFn, show P.G.B = P.B from rfl, hB,
      sig_back, ret_back, List.cons_append, List.append_assoc]
    rfl

theorem mem_setGet (h : Fits P C) : Mem (setGetTokens P) (P.members C .setGetBitOps) := by
  cases hB : P.B.backing with
  | int w =>
    refine ((mem_setOpsInt h w hB).append (mem_getOpsInt h w hB)).cast ?_ ?_
    · toks [setGetTokens]
    · simp only [Printer.members, Printer.fns, paramTok, hB, String.reduceAppend, List.map_cons, List.map_nil,
        List.cons_append, List.nil_append]
  | arr n =>
    refine ((mem_setOpsArr h n hB).append (mem_getOpsArr h n hB)).cast ?_ ?_
    · toks [setGetTokens]
    · simp only [Printer.members, Printer.fns, paramTok, hB, String.reduceAppend, List.map_cons, List.map_nil,
        List.cons_append, List.nil_append]

end Bf.Text
