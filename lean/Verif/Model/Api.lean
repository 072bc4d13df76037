import Verif.Model.Gen

/-!
# The generated API

One definition per generated function (paths relative to `/repo/bitfields_impl/src`,
`features/` is generating/bitfield/features/). Functions on `&mut self` take the store and return the new one.
-/

namespace Bf

/-! ## Construction -/

/-- `new()`, features/new_functions_feature.rs:53-68 -/
def apiNew (m : Mode) (B : Bitfield) : R Store := newBody m B true (initStore B)

/-- `new_without_defaults()`, features/new_functions_feature.rs:71-87 -/
def apiNewWithoutDefaults (m : Mode) (B : Bitfield) : R Store := newBody m B false (initStore B)

/-- `Default::default()`, features/default_trait_feature.rs:47-66; `genNew` says whether
the `new` functions are generated. -/
def apiDefault (m : Mode) (B : Bitfield) (genNew : Bool) : R Store :=
  if genNew then apiNew m B else setDefaults m B (initStore B)

/-! ## Endian conversions -/

/-- In-place reversal by xor swaps: `let j = LEN - 1 - i; b[i] ^= b[j]; b[j] ^= b[i];
b[i] ^= b[j]` for `i < LEN / 2`, features/from_into_bits_feature.rs:218-226, 343-351,
537-545, 550-558, 616-624; features/write_bit_ops_feature.rs:162-169. `LEN - 1 - i` cannot underflow for
`i < LEN / 2`. -/
def xorReverse (n : Nat) (bs : List (BitVec 8)) : R (List (BitVec 8)) :=
  forUpTo (n / 2) (fun i bs => do
    let j := n - 1 - i
    let bi ← getB bs i
    let bj ← getB bs j
    let bs ← setB bs i (bi ^^^ bj)
    let bi ← getB bs i
    let bj ← getB bs j
    let bs ← setB bs j (bj ^^^ bi)
    let bi ← getB bs i
    let bj ← getB bs j
    setB bs i (bi ^^^ bj)) bs

/-- In-place reversal with a temporary, features/from_traits_feature.rs:138-162 -/
def tempReverse (bs : List (BitVec 8)) : R (List (BitVec 8)) :=
  forUpTo (bs.length / 2) (fun i b => do
    let temp ← getB b i
    let x ← getB b (b.length - 1 - i)
    let b ← setB b i x
    setB b (b.length - 1 - i) temp) bs

/-- Conversion of the argument of `from_*` functions: integer-backed
generating/common/endian_conversion.rs:8-19 and features/from_into_bits_feature.rs:88-131,
array-backed features/from_into_bits_feature.rs:213-228. `n` is the array length of
the backing type. -/
def fromConv (B : Bitfield) (e : Endian) (src : Store) : R Store :=
  match src, B.backing, e with
  | .int w v, .int _, .little => .ok (.int w (swapBytes v))
  | .int w v, .int _, .big => .ok (.int w v)
  | .arr bs, .arr _, .little => .ok (.arr bs)
  | .arr bs, .arr n, .big => do return .arr (← xorReverse n bs)
  | _, _, _ => .error .rejected

/-- Conversion of the result of `into_*` functions,
features/from_into_bits_feature.rs:135-173 and 525-562. -/
def intoConv (B : Bitfield) (e : Endian) (s : Store) : R Store :=
  match s, B.backing, e with
  | .int w v, .int _, .little => .ok (.int w (swapBytes v))
  | .int w v, .int _, .big => .ok (.int w v)
  | .arr bs, .arr _, .little => .ok (.arr bs)
  | .arr bs, .arr n, .big => do return .arr (← xorReverse n bs)
  | _, _, _ => .error .rejected

/-- Conversion of the argument of `write_*` functions,
features/write_bit_ops_feature.rs:143-177. -/
def writeConv (B : Bitfield) (e : Endian) (src : Store) : R Store :=
  match src, B.backing, e with
  | .int w v, .int _, .little => .ok (.int w (swapBytes v))
  | .arr bs, .arr n, .little => do return .arr (← xorReverse n bs)
  | .int w v, .int _, .big => .ok (.int w v)
  | .arr bs, .arr _, .big => .ok (.arr bs)
  | _, _, _ => .error .rejected

/-- Conversion in the `From` trait implementations,
features/from_traits_feature.rs:103-166. -/
def traitConv (B : Bitfield) (e : Endian) (src : Store) : R Store :=
  match src, B.backing, e with
  | .int w v, .int _, .little => .ok (.int w (swapBytes v))
  | .int w v, .int _, .big => .ok (.int w v)
  | .arr bs, .arr _, .little => .ok (.arr bs)
  | .arr bs, .arr _, .big => do return .arr (← tempReverse bs)
  | _, _, _ => .error .rejected

/-! ## `from_*`, `into_*` -/

/-- `from_le_bits`/`from_be_bits` (`from_le_bytes`/`from_be_bytes`),
features/from_into_bits_feature.rs:97-131, 253-287 -/
def apiFromE (m : Mode) (B : Bitfield) (e : Endian) (src : Store) : R Store := do
  let bits ← fromConv B e src
  setAllFromSource m B .none bits (initStore B)

/-- `from_{le,be}_bits_with_defaults` (bytes), features/from_into_bits_feature.rs:105-131,
261-287 -/
def apiFromEDefaults (m : Mode) (B : Bitfield) (e : Endian) (src : Store) : R Store := do
  let bits ← fromConv B e src
  let s ← setAllFromSource m B .none bits (initStore B)
  setDefaults m B s

/-- `from_bits`/`from_bytes`, features/from_into_bits_feature.rs:77-84, 235-241 -/
def apiFrom (m : Mode) (B : Bitfield) (src : Store) : R Store := apiFromE m B B.fromEndian src

/-- `from_bits_with_defaults`/`from_bytes_with_defaults`,
features/from_into_bits_feature.rs:86-95, 243-251 -/
def apiFromDefaults (m : Mode) (B : Bitfield) (src : Store) : R Store :=
  apiFromEDefaults m B B.fromEndian src

/-- `into_le_bits`/`into_be_bits` (bytes), features/from_into_bits_feature.rs:157-171,
576-586 -/
def apiIntoE (B : Bitfield) (e : Endian) (s : Store) : R Store := intoConv B e s

/-- `into_bits`/`into_bytes`, features/from_into_bits_feature.rs:149-155, 570-574 -/
def apiInto (B : Bitfield) (s : Store) : R Store := apiIntoE B B.intoEndian s

/-- `impl From<T> for Bitfield`, features/from_traits_feature.rs:52-81 -/
def apiTraitFrom (m : Mode) (B : Bitfield) (src : Store) : R Store := do
  let bits ← traitConv B B.fromEndian src
  setAllFromSource m B .none bits (initStore B)

/-- `impl From<Bitfield> for T`, features/from_traits_feature.rs:83-99 -/
def apiTraitInto (B : Bitfield) (s : Store) : R Store := traitConv B B.intoEndian s

/-! ## Slices (array-backed only) -/

/-- features/from_into_bits_feature.rs:336 -/
def errSliceFill : String := "Slice is too small to fill the bitfield."

/-- features/from_into_bits_feature.rs:652 -/
def errSliceHold : String := "Slice is too small to hold the bitfield."

/-- `bits[i] = slice[i]` for `i < len` on `[0; n]`,
features/from_into_bits_feature.rs:314-332 -/
def copyFromSlice (n len : Nat) (slice : List (BitVec 8)) : R (List (BitVec 8)) :=
  forUpTo len (fun i bits => do
    let b ← getB slice i
    setB bits i b) (List.replicate n 0#8)

/-- `slice[i] = bits[i]` for `i < len`, features/from_into_bits_feature.rs:633-648 -/
def copyToSlice (len : Nat) (bits slice : List (BitVec 8)) : R (List (BitVec 8)) :=
  forUpTo len (fun i slice => do
    let b ← getB bits i
    setB slice i b) slice

/-- `from_{,le_,be_}slice{,_with_defaults}`, features/from_into_bits_feature.rs:293-505 -/
def apiFromSlice (m : Mode) (B : Bitfield) (e : Endian) (withDefaults : Bool)
    (slice : List (BitVec 8)) : R Store :=
  match B.backing with
  | .int _ => .error .rejected
  | .arr n => do
    let copyLen := if slice.length < n then slice.length else n
    let bits ← copyFromSlice n copyLen slice
    let bits ← match e with
      | .little => (.ok bits : R _)
      | .big => xorReverse n bits
    let s ← setAllFromSource m B .none (.arr bits) (initStore B)
    if withDefaults then setDefaults m B s else return s

/-- `checked_from_{,le_,be_}slice{,_with_defaults}`,
features/from_into_bits_feature.rs:293-505 -/
def apiCheckedFromSlice (m : Mode) (B : Bitfield) (e : Endian) (withDefaults : Bool)
    (slice : List (BitVec 8)) : R (Except String Store) :=
  match B.backing with
  | .int _ => .error .rejected
  | .arr n =>
    if slice.length < n then .ok (.error errSliceFill)
    else do
      let bits ← copyFromSlice n n slice
      let bits ← match e with
        | .little => (.ok bits : R _)
        | .big => xorReverse n bits
      let s ← setAllFromSource m B .none (.arr bits) (initStore B)
      if withDefaults then do
        let s ← setDefaults m B s
        return .ok s
      else return .ok s

/-- `into_{,le_,be_}slice`, features/from_into_bits_feature.rs:592-718. Returns the slice
after the call. -/
def apiIntoSlice (B : Bitfield) (e : Endian) (s : Store) (slice : List (BitVec 8)) :
    R (List (BitVec 8)) :=
  match s, B.backing with
  | .arr bs, .arr n => do
    let bits ← match e with
      | .little => (.ok bs : R _)
      | .big => xorReverse n bs
    let copyLen := if slice.length < n then slice.length else n
    copyToSlice copyLen bits slice
  | _, _ => .error .rejected

/-- `checked_into_{,le_,be_}slice`, features/from_into_bits_feature.rs:592-718 -/
def apiCheckedIntoSlice (B : Bitfield) (e : Endian) (s : Store) (slice : List (BitVec 8)) :
    R (Except String Unit × List (BitVec 8)) :=
  match s, B.backing with
  | .arr bs, .arr n =>
    if slice.length < n then .ok (.error errSliceHold, slice)
    else do
      let bits ← match e with
        | .little => (.ok bs : R _)
        | .big => xorReverse n bs
      let slice ← copyToSlice n bits slice
      return (.ok (), slice)
  | _, _ => .error .rejected

/-! ## Write operations -/

/-- `write_{le,be}_bits` (bytes), features/write_bit_ops_feature.rs:99-122 -/
def apiWriteE (m : Mode) (B : Bitfield) (e : Endian) (src s : Store) : R Store := do
  let bits ← writeConv B e src
  setAllFromSource m B .readOnly bits s

/-- `write_{le,be}_bits_with_defaults` (bytes), features/write_bit_ops_feature.rs:107-131 -/
def apiWriteEDefaults (m : Mode) (B : Bitfield) (e : Endian) (src s : Store) : R Store := do
  let bits ← writeConv B e src
  let s ← setAllFromSource m B .readOnly bits s
  setDefaults m B s

/-- `write_bits`/`write_bytes`, features/write_bit_ops_feature.rs:82-88 -/
def apiWrite (m : Mode) (B : Bitfield) (src s : Store) : R Store :=
  apiWriteE m B B.writeEndian src s

/-- `write_bits_with_defaults`, features/write_bit_ops_feature.rs:90-97 -/
def apiWriteDefaultsBits (m : Mode) (B : Bitfield) (src s : Store) : R Store :=
  apiWriteEDefaults m B B.writeEndian src s

/-- `write_defaults`, features/write_bit_ops_feature.rs:133-137 -/
def apiWriteDefaults (m : Mode) (B : Bitfield) (s : Store) : R Store := setDefaults m B s

/-! ## Clear operations -/

/-- `clear_bits`/`clear_bytes`, features/clear_bit_ops_feature.rs:73-77 -/
def apiClear (m : Mode) (B : Bitfield) (s : Store) : R Store := newBody m B false s

/-- `clear_bits_with_defaults`, features/clear_bit_ops_feature.rs:79-83 -/
def apiClearDefaults (m : Mode) (B : Bitfield) (s : Store) : R Store := newBody m B true s

/-! ## Invert -/

/-- The array loop of `invert_bytes`, features/invert_bit_ops_feature.rs:97-101 -/
def invertLoop (n : Nat) (prot bs : List (BitVec 8)) : R (List (BitVec 8)) :=
  forUpTo n (fun i bs => do
    let b ← getB bs i
    let p ← getB prot i
    setB bs i ((~~~b &&& ~~~p) ||| (b &&& p))) bs

/-- `invert_bits`/`invert_bytes`, features/invert_bit_ops_feature.rs:54-107 -/
def apiInvert (m : Mode) (B : Bitfield) (s : Store) : R Store :=
  match s, B.backing with
  | .int w v, .int _ =>
    let p := (protMask128 (protectedFields B .readOnly)).setWidth w
    let bits := (~~~v &&& ~~~p) ||| (v &&& p)
    setAllFromSource m B .none (.int w bits) s
  | .arr bs, .arr n => do
    let p := protMaskBytes (protectedFields B .readOnly) n
    let bits ← invertLoop n p bs
    setAllFromSource m B .none (.arr bits) s
  | _, _ => .error .rejected

/-! ## Bit operations -/

/-- features/set_get_bit_ops_feature.rs:548 -/
def errOffset : String := "The offset is outside the bitfield range."
/-- features/set_get_bit_ops_feature.rs:553 -/
def errLength : String := "The length is outside the bitfield range."
/-- features/set_get_bit_ops_feature.rs:558 -/
def errWrite : String := "Attempted to write to non-writable bit(s)."
/-- features/set_get_bit_ops_feature.rs:563 -/
def errRead : String := "Attempted to read from non-readable bit(s)."

/-- The chain of field guards: one `if offset >= OFF && offset < END { return .. }` per
non-writable / non-readable field, all with the same return,
features/set_get_bit_ops_feature.rs:484-516. -/
def fieldGuard (fs : List Field) (offset : Nat) : Bool :=
  fs.any fun f => decide (f.offset ≤ offset) && decide (offset < f.offset + f.bits)

/-- The write of one bit, features/set_get_bit_ops_feature.rs:103-107, 167-173 -/
def putStoreBit (m : Mode) (s : Store) (offset : Nat) (b : Bool) : R Store :=
  match s with
  | .int w v => do return .int w (← intSetBit m v offset b)
  | .arr bs => do
    let x ← getB bs (offset / 8)
    return .arr (← setB bs (offset / 8) (putBit x (offset % 8) b))

/-- The read of one bit, features/set_get_bit_ops_feature.rs:312, 360-362 -/
def readStoreBit (m : Mode) (s : Store) (offset : Nat) : R Bool :=
  match s with
  | .int w v => do
    let x ← shr m v offset
    return (x &&& 1#w) != 0#w
  | .arr bs => do
    let b ← getB bs (offset / 8)
    return ((b >>> (offset % 8)) &&& 1#8) != 0#8

/-- `set_bit`, features/set_get_bit_ops_feature.rs:96-108, 160-174 -/
def apiSetBit (m : Mode) (B : Bitfield) (s : Store) (offset : Nat) (b : Bool) : R Store :=
  if offset ≥ B.backing.size then .ok s
  else if fieldGuard (B.fields.filter fun f => !f.hasSetter) offset then .ok s
  else putStoreBit m s offset b

/-- `checked_set_bit`, features/set_get_bit_ops_feature.rs:110-125, 176-193 -/
def apiCheckedSetBit (m : Mode) (B : Bitfield) (s : Store) (offset : Nat) (b : Bool) :
    R (Except String Unit × Store) :=
  if offset ≥ B.backing.size then .ok (.error errOffset, s)
  else if fieldGuard (B.fields.filter fun f => !f.hasSetter) offset then .ok (.error errWrite, s)
  else do
    let s ← putStoreBit m s offset b
    return (.ok (), s)

/-- `get_bit`, features/set_get_bit_ops_feature.rs:307-313, 355-363 -/
def apiGetBit (m : Mode) (B : Bitfield) (s : Store) (offset : Nat) : R Bool :=
  if offset ≥ B.backing.size then .ok false
  else if fieldGuard (B.fields.filter fun f => !f.hasReadAccess) offset then .ok false
  else readStoreBit m s offset

/-- `checked_get_bit`, features/set_get_bit_ops_feature.rs:315-322, 365-374 -/
def apiCheckedGetBit (m : Mode) (B : Bitfield) (s : Store) (offset : Nat) :
    R (Except String Bool) :=
  if offset ≥ B.backing.size then .ok (.error errOffset)
  else if fieldGuard (B.fields.filter fun f => !f.hasReadAccess) offset then .ok (.error errRead)
  else do
    let b ← readStoreBit m s offset
    return .ok b

/-! ## Range operations -/

/-- `(bs[i/8] >> (i % 8)) & 1 != 0` -/
def bitAt (bs : List (BitVec 8)) (i : Nat) : R Bool := do
  let b ← getB bs (i / 8)
  return ((b >>> (i % 8)) &&& 1#8) != 0#8

/-- `set_bits_range`/`set_bytes_range`, features/set_get_bit_ops_feature.rs:127-137, 195-218.
`value` has the backing type. -/
def apiSetRange (m : Mode) (B : Bitfield) (s : Store) (offset length : Nat) (value : Store) :
    R Store :=
  if offset ≥ B.backing.size then .ok s
  else do
    let sum ← addU32 m offset length
    if sum > B.backing.size then return s
    else match s, value, B.backing with
      | .int w v, .int w' x, .int _ =>
        if h : w' = w then do
          let k ← subU32 m w length
          let r ← shr m (maxOf w) k
          let range ← shl m r offset
          let prot := (protMask128 (protectedFields B .readOnly)).setWidth w
          let writable := range &&& ~~~prot
          let sh ← shl m (h ▸ x) offset
          return .int w ((v &&& ~~~writable) ||| (sh &&& writable))
        else .error .rejected
      | .arr bs, .arr x, .arr n => do
        let prot := protMaskBytes (protectedFields B .readOnly) n
        let bs ← forUpTo length (fun i bs => do
          let bv ← bitAt x i
          let dst ← addU32 m offset i
          let p ← bitAt prot dst
          if !p then do
            let b ← getB bs (dst / 8)
            setB bs (dst / 8) (putBit b (dst % 8) bv)
          else return bs) bs
        return .arr bs
      | _, _, _ => .error .rejected

/-- The loop that looks for a protected bit and returns early,
features/set_get_bit_ops_feature.rs:230-240, 409-419: `true` if one was found. -/
def anyProtected (m : Mode) (prot : List (BitVec 8)) (offset length : Nat) : R Bool :=
  forUpTo length (fun i found => do
    if found then return true
    else
      let dst ← addU32 m offset i
      bitAt prot dst) false

/-- `checked_set_bits_range`/`checked_set_bytes_range`,
features/set_get_bit_ops_feature.rs:139-156, 220-255. -/
def apiCheckedSetRange (m : Mode) (B : Bitfield) (s : Store) (offset length : Nat)
    (value : Store) : R (Except String Unit × Store) :=
  if offset ≥ B.backing.size then .ok (.error errOffset, s)
  else do
    let sum ← addU32 m offset length
    if sum > B.backing.size then return (.error errLength, s)
    else match s, value, B.backing with
      | .int w v, .int w' x, .int _ =>
        if h : w' = w then do
          let k ← subU32 m w length
          let mask ← shr m (maxOf w) k
          let prot := (protMask128 (protectedFields B .readOnly)).setWidth w
          let range ← shl m mask offset
          if (range &&& prot) ≠ 0#w then return (.error errWrite, s)
          else
            let a ← shl m mask offset
            let b ← shl m ((h ▸ x) &&& mask) offset
            return (.ok (), .int w ((v &&& ~~~a) ||| b))
        else .error .rejected
      | .arr bs, .arr x, .arr n => do
        let prot := protMaskBytes (protectedFields B .readOnly) n
        let found ← anyProtected m prot offset length
        if found then return (.error errWrite, s)
        else do
          let bs ← forUpTo length (fun i bs => do
            let bv ← bitAt x i
            let dst ← addU32 m offset i
            let b ← getB bs (dst / 8)
            setB bs (dst / 8) (putBit b (dst % 8) bv)) bs
          return (.ok (), .arr bs)
      | _, _, _ => .error .rejected

/-- The zero of the backing type returned by the guards,
features/set_get_bit_ops_feature.rs:533-545 -/
def zeroStore (B : Bitfield) : Store := initStore B

/-- `get_bits_range`/`get_bytes_range`, features/set_get_bit_ops_feature.rs:324-334, 376-398 -/
def apiGetRange (m : Mode) (B : Bitfield) (s : Store) (offset length : Nat) : R Store :=
  if offset ≥ B.backing.size then .ok (zeroStore B)
  else do
    let sum ← addU32 m offset length
    if sum > B.backing.size then return zeroStore B
    else match s, B.backing with
      | .int w v, .int _ => do
        let k ← subU32 m w length
        let mask ← shr m (maxOf w) k
        let prot := (protMask128 (protectedFields B .writeOnly)).setWidth w
        let sp ← shr m prot offset
        let sp := sp &&& mask
        let readable := mask &&& ~~~sp
        let x ← shr m v offset
        return .int w ((x &&& mask) &&& readable)
      | .arr bs, .arr n => do
        let prot := protMaskBytes (protectedFields B .writeOnly) n
        let res ← forUpTo length (fun i res => do
          let src ← addU32 m offset i
          let p ← bitAt prot src
          if !p then do
            let b ← getB bs (src / 8)
            let bv := (b >>> (src % 8)) &&& 1#8
            let r ← getB res (i / 8)
            setB res (i / 8) (r ||| (bv <<< (i % 8)))
          else return res) (List.replicate n 0#8)
        return .arr res
      | _, _ => .error .rejected

/-- `checked_get_bits_range`/`checked_get_bytes_range`,
features/set_get_bit_ops_feature.rs:336-351, 400-433 -/
def apiCheckedGetRange (m : Mode) (B : Bitfield) (s : Store) (offset length : Nat) :
    R (Except String Store) :=
  if offset ≥ B.backing.size then .ok (.error errOffset)
  else do
    let sum ← addU32 m offset length
    if sum > B.backing.size then return .error errLength
    else match s, B.backing with
      | .int w v, .int _ => do
        let k ← subU32 m w length
        let mask ← shr m (maxOf w) k
        let prot := (protMask128 (protectedFields B .writeOnly)).setWidth w
        let range ← shl m mask offset
        if (range &&& prot) ≠ 0#w then return .error errRead
        else
          let x ← shr m v offset
          return .ok (.int w (x &&& mask))
      | .arr bs, .arr n => do
        let prot := protMaskBytes (protectedFields B .writeOnly) n
        let found ← anyProtected m prot offset length
        if found then return .error errRead
        else do
          let res ← forUpTo length (fun i res => do
            let src ← addU32 m offset i
            let b ← getB bs (src / 8)
            let bv := (b >>> (src % 8)) &&& 1#8
            let r ← getB res (i / 8)
            setB res (i / 8) (r ||| (bv <<< (i % 8)))) (List.replicate n 0#8)
          return .ok (.arr res)
      | _, _ => .error .rejected

/-! ## Builder -/

/-- `BitfieldBuilder::new()` / `new_without_defaults()`, features/builder_feature.rs:92-126:
calls the bitfield's constructor, or inlines its body when `new` is not generated. -/
def builderNew (m : Mode) (B : Bitfield) (genNew withDefaults : Bool) : R Store :=
  if genNew then
    if withDefaults then apiNew m B else apiNewWithoutDefaults m B
  else newBody m B withDefaults (initStore B)

/-- `with_x` (`check = false`) / `checked_with_x` (`check = true`),
features/builder_feature.rs:128-179 with GH:243-245, 287-319: fields with a setter call
`self.this.set_x(bits as _)` or `self.this.checked_set_x(bits as _)`; the others inline
the setter body. -/
def builderWith (m : Mode) (check : Bool) (f : Field) (s : Store) (v : Val) :
    R (Except String Unit × Store) :=
  if f.hasSetter then
    match f.ty, v with
    | .int .bool, _ => setImpl m check f s v
    | .int t, .int n => setImpl m check f s (.int (t.cast n))
    | _, _ => setImpl m check f s v
  else setImpl m check f s v

/-- `generate_debug_set_field_tokens`, features/debug_trait_feature.rs:50-72: the list of
`debug.field(name, &value)` calls, in order. -/
def apiDebug (m : Mode) (B : Bitfield) (s : Store) : R (List (String × Val)) :=
  B.fields.mapM fun f => do
    let v ← extract m f false s
    return (f.name, v)

end Bf
