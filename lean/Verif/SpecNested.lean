import Verif.SpecRun
import Verif.SpecCode
import Verif.SpecFlag

/-!
# The conversions that the generated code offers

A field may have a type that one of the macros made. Its `from_bits` and `into_bits` are then the generated functions.
-/

namespace Bf

open Rust Quote

/-- The conversions of a struct with an integer of `w` bits as its storage: `from_bits` and `into_bits` of the generated
code, run as programs. The code of a value is the number it stores. -/
def emittedCodec (rt : Mode) (fuel : Nat) (p : Parsed) (w : Nat) : Codec where
  fromBits n :=
    match (program p).make p.bitfield rt fuel (.from none false (.int w (BitVec.ofNat w n))) (.int w 0#w) with
    | .ok (.ok st) => .ok st.toNat
    | .error (.panic q) => .error q
    | _ => .error .rejected
  intoBits code :=
    match (program p).call p.bitfield rt fuel (.into none) (.int w (BitVec.ofNat w code)) with
    | .ok (.store st, _) => st.toNat
    | _ => 0

/-- Types that the macros make and that keep every pattern of `bits` bits: enums with a variant for each of them, and
structs that are at least this wide, whose fields of user types again have such types. Conversions in both directions
use the same byte order. -/
inductive MacroType (m : Mode) (cfg : String → Bool) (rt : Mode) (fuel : Nat) : Codec → Nat → Prop
  | enum {S : EnumSpec} {c : FlagCode} {w bits : Nat} (hr : S.Readable) (hc : S.Compiles w)
      (h : expandBitflag cfg S.attr S.decl = .ok c) (he : S.fromEndian cfg = S.intoEndian cfg) (hb : bits ≤ w)
      (hall : ∀ n < 2 ^ bits, ∃ v ∈ S.variants, ∃ d,
        v.value = some (d, numberIn (S.fromEndian cfg) (BitVec.ofNat w n))) : MacroType m cfg rt fuel (c.codec w) bits
  | struct {s : StructSpec} {as : List BitfieldArgSpec} {p : Parsed} {t : IntTy} {bits : Nat} (hr : s.Readable)
      (ha : s.rest = bitfieldTokens as) (hl : s.Legal) (hu : s.Usable) (h : parseBitfield m cfg s.attr s.decl = .ok p)
      (ht : s.storage = .int t) (hg : GroupOn cfg as .fromIntoBits = true)
      (he : (statedEndian as .from).getD (EndianKey.from.byDefault cfg) =
        (statedEndian as .into).getD (EndianKey.into.byDefault cfg)) (hb : bits ≤ t.bitSize)
      (inner : ∀ f ∈ s.fields, f.ignored = false → ∀ name c, f.ty = .custom name c → MacroType m cfg rt fuel c f.width) :
      MacroType m cfg rt fuel (emittedCodec rt fuel p t.bitSize) bits

end Bf
