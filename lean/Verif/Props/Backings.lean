import Verif.Props.Safety

/-!
# Integer and byte-array backing behave alike (C35)
-/

namespace Bf

variable {B1 B2 : Bitfield}

/-- A value moved to another backing type, bit for bit. -/
def Store.rebase (b : Backing) (s : Store) : Store := Store.ofBits b s.bit

/-- The same call on a bitfield with backing `b`: range arguments are re-typed. -/
def Call.rebase (b : Backing) : Call → Call
  | .setRange o l x => .setRange o l (x.rebase b)
  | .checkedSetRange o l x => .checkedSetRange o l (x.rebase b)
  | c => c

/-- The same result on a bitfield with backing `b`: ranges read are re-typed. -/
def Out.rebase (b : Backing) : Out → Out
  | .store s => .store (s.rebase b)
  | o => o

/-- Field, bit, range, clear and invert operations and `write_defaults`: everything but the
conversions `into_*`, `write_*`, `From`, and `Debug`, whose arguments and results are
in the format of the backing type. -/
def Call.isCommon : Call → Bool
  | .into _ | .intoTrait | .intoSlice _ _ | .checkedIntoSlice _ _ | .write _ _ _ | .debug => false
  | _ => true

theorem bit_rebase {b : Backing} {s : Store} {i : Nat} (hi : i < b.size) :
    (s.rebase b).bit i = s.bit i := Store.bit_ofBits_lt hi

theorem rebase_ofBits {b b' : Backing} (h : b'.size ≤ b.size) (g : Bits) :
    (Store.ofBits b g).rebase b' = Store.ofBits b' g :=
  Store.ofBits_congr fun _ hi => Store.bit_ofBits_lt (Nat.lt_of_lt_of_le hi h)

theorem valid_rebase {w n : Nat} (h1 : B1.backing = .int w) (h2 : B2.backing = .arr n)
    (hw : w = 8 * n) (hw' : w ≤ 128) (hf : B1.fields = B2.fields) {c : Call} (hc : c.Valid B1)
    (hcom : c.isCommon = true) : (c.rebase B2.backing).Valid B2 := by
  have hrange : ∀ o l, RangeOK B1.backing o l → RangeOK B2.backing o l := by
    intro o l h ho
    rw [h1] at h
    rw [h2] at ho ⊢
    have := h (by simp only [Backing.size] at ho ⊢; omega)
    exact ⟨this.1, fun _ => ⟨n, rfl⟩⟩
  cases c with
  | get f => simp only [Call.rebase, Call.Valid, ← hf]; exact hc
  | inverted f => simp only [Call.rebase, Call.Valid, ← hf]; exact hc
  | set f v => simp only [Call.rebase, Call.Valid, ← hf]; exact hc
  | checkedSet f v =>
    simp only [Call.rebase, Call.Valid, ← hf]
    refine ⟨hc.1, hc.2.1, hc.2.2.1, ?_⟩
    have h := hc.2.2.2
    rw [h1] at h
    rw [h2]
    unfold CheckExact at h ⊢
    split at h
    · exact fun _ w h => by cases h
    · refine ⟨h.1, ?_⟩
      have e : (2 : Int) ^ w ≤ 2 ^ 128 := by
        have : (2 : Nat) ^ w ≤ 2 ^ 128 := Nat.pow_le_pow_right (by omega) hw'
        exact_mod_cast this
      exact Int.lt_of_lt_of_le h.2 e
    · exact h
    · trivial
  | clearField f => simp only [Call.rebase, Call.Valid, ← hf]; exact hc
  | clearFieldToDefault f => simp only [Call.rebase, Call.Valid, ← hf]; exact hc
  | invertField f => simp only [Call.rebase, Call.Valid, ← hf]; exact hc
  | getBit o => trivial
  | checkedGetBit o => trivial
  | setBit o b => trivial
  | checkedSetBit o b => trivial
  | getRange o l => exact hrange o l hc
  | checkedGetRange o l => exact hrange o l hc
  | setRange o l x => exact ⟨hrange o l hc.1, Store.hasBacking_ofBits _ _⟩
  | checkedSetRange o l x => exact ⟨hrange o l hc.1, Store.hasBacking_ofBits _ _⟩
  | into e => cases hcom
  | intoTrait => cases hcom
  | intoSlice e sl => cases hcom
  | checkedIntoSlice e sl => cases hcom
  | write e d x => cases hcom
  | writeDefaults => trivial
  | clear d => trivial
  | invert => trivial
  | debug => cases hcom

theorem specCall_rebase (hsize : B1.backing.size = B2.backing.size)
    (hf : B1.fields = B2.fields) {c : Call} (hcom : c.isCommon = true) (g : Bits) :
    specCall B2 (c.rebase B2.backing) g =
      (specCall B1 c g).map fun p => (p.1.rebase B2.backing, p.2) := by
  have hW : B2.writable = B1.writable := by
    funext i; unfold Bitfield.writable; rw [hf]
  have hR : B2.readable = B1.readable := by
    funext i; unfold Bitfield.readable; rw [hf]
  have hD : defaultsAll B2 = defaultsAll B1 := by
    funext g; unfold defaultsAll; rw [hf]
  cases c with
  | get f => simp only [Call.rebase, specCall]; cases decode f (f.bitsOf g) <;> rfl
  | inverted f => simp only [Call.rebase, specCall]; cases decodeZ f (fun i => !f.bitsOf g i) <;> rfl
  | set f v => simp only [Call.rebase, specCall]; cases roundTrip f (encode f.ty v) <;> rfl
  | checkedSet f v =>
    simp only [Call.rebase, specCall]
    split
    · cases roundTrip f (encode f.ty v) <;> rfl
    · rfl
  | clearField f => simp only [Call.rebase, specCall]; cases absorb f (fun _ => false) <;> rfl
  | clearFieldToDefault f => simp only [Call.rebase, specCall]; cases f.defaultBits <;> rfl
  | invertField f =>
    simp only [Call.rebase, specCall]; cases absorb f (fun i => !f.bitsOf g i) <;> rfl
  | getBit o => simp only [Call.rebase, specCall, hR, hsize]; rfl
  | checkedGetBit o =>
    simp only [Call.rebase, specCall, hR, hsize]
    split
    · rfl
    · split <;> rfl
  | setBit o b => simp only [Call.rebase, specCall, hW]; rfl
  | checkedSetBit o b =>
    simp only [Call.rebase, specCall, hW, hsize]
    split
    · rfl
    · split <;> rfl
  | getRange o l =>
    simp only [Call.rebase, specCall, hR, hsize, Except.map, Out.rebase]
    rw [rebase_ofBits (by omega)]
  | checkedGetRange o l =>
    simp only [Call.rebase, specCall, hR, hsize]
    split
    · rfl
    · split
      · rfl
      · split
        · simp only [Except.map, Out.rebase]
          rw [rebase_ofBits (by omega)]
        · rfl
  | setRange o l x =>
    simp only [Call.rebase, specCall, hW, hsize, Except.map, Out.rebase]
    refine congrArg (fun z => Except.ok (Out.unit, z)) ?_
    funext i
    split
    · rename_i h; exact bit_rebase (by omega)
    · rfl
  | checkedSetRange o l x =>
    simp only [Call.rebase, specCall, hW, hsize]
    split
    · rfl
    · split
      · rfl
      · split
        · simp only [Except.map, Out.rebase]
          refine congrArg (fun z => Except.ok (Out.unit, z)) ?_
          funext i
          split
          · rename_i h; exact bit_rebase (by omega)
          · rfl
        · rfl
  | into e => cases hcom
  | intoTrait => cases hcom
  | intoSlice e sl => cases hcom
  | checkedIntoSlice e sl => cases hcom
  | write e d x => cases hcom
  | writeDefaults => simp only [Call.rebase, specCall, hD]; cases defaultsAll B1 g <;> rfl
  | clear d =>
    cases d
    · simp only [Call.rebase, specCall, ← hf]
      cases storeAll B1.fields (fun f => absorb f fun _ => false) g with
      | error p => rfl
      | ok g1 =>
        simp only [R_bind_ok]
        cases storeAll (B1.fields.filter fun f => f.reserved && f.default.isSome)
          Field.defaultBits g1 <;> rfl
    · simp only [Call.rebase, specCall, ← hf, hD]
      cases storeAll (B1.fields.filter fun f => f.default.isNone) (fun f => absorb f fun _ => false) g with
      | error p => rfl
      | ok g1 => simp only [R_bind_ok]; cases defaultsAll B1 g1 <;> rfl
  | invert =>
    simp only [Call.rebase, specCall, ← hf, hW]
    cases storeAll B1.fields
      (fun f => absorb f (f.bitsOf fun i => if B1.writable i then !g i else g i)) g <;> rfl
  | debug => cases hcom

theorem specHistory_rebase (hsize : B1.backing.size = B2.backing.size)
    (hf : B1.fields = B2.fields) (cs : List Call) (hcom : ∀ c ∈ cs, c.isCommon = true) (g : Bits) :
    specHistory B2 (cs.map (Call.rebase B2.backing)) g =
      (specHistory B1 cs g).map fun p => (p.1.map (Out.rebase B2.backing), p.2) := by
  induction cs generalizing g with
  | nil => rfl
  | cons c cs ih =>
    simp only [List.map_cons, specHistory]
    rw [specCall_rebase hsize hf (hcom c List.mem_cons_self)]
    cases specCall B1 c g with
    | error p => rfl
    | ok r =>
      simp only [Except.map, R_bind_ok]
      rw [ih (fun c hc => hcom c (List.mem_cons_of_mem _ hc))]
      cases specHistory B1 cs r.2 <;> rfl

/-- **C35.** Declare the same fields on an unsigned integer of `8n` bits and on `[u8; n]`. From values
with the same bits, the same history of field, bit, range, clear and invert operations gives the
same results (ranges re-typed), the same panics, and final values with the same bits.
(Missing for the full claim: the range and checked-setter arguments excluded by `Valid`, on which the two
backings really differ, see `Props/Findings.lean`.) -/
theorem C35_same_history_partial (m : Mode) {w n : Nat} (h1 : B1.backing = .int w)
    (h2 : B2.backing = .arr n) (hw : w = 8 * n) (hf : B1.fields = B2.fields) (hB1 : WF B1)
    (hB2 : WF B2) (hS1 : Supported B1) (hS2 : Supported B2) (cs : List Call)
    (hcom : ∀ c ∈ cs, c.isCommon = true) (hc : ∀ c ∈ cs, c.Valid B1) (s : Store)
    (hs : s.HasBacking B1.backing) :
    history m B2 (cs.map (Call.rebase (.arr n))) (s.rebase (.arr n)) =
      (history m B1 cs s).map fun p => (p.1.map (Out.rebase (.arr n)), p.2.rebase (.arr n)) := by
  have hsize : B1.backing.size = B2.backing.size := by rw [h1, h2]; exact hw
  have hw' : w ≤ 128 := by
    have := hB1.backing
    rw [h1] at this
    simp only [Backing.OK] at this
    omega
  have hc2 : ∀ c ∈ cs.map (Call.rebase B2.backing), c.Valid B2 := by
    intro c hc'
    obtain ⟨c0, hc0, rfl⟩ := List.mem_map.mp hc'
    exact valid_rebase h1 h2 hw hw' hf (hc c0 hc0) (hcom c0 hc0)
  rw [← h2]
  have e1 := history_refines m hB2 hS2 _ hc2 s.bit
  have e2 := history_refines m hB1 hS1 cs hc s.bit
  rw [Store.ofBits_bit hs] at e2
  rw [show s.rebase B2.backing = Store.ofBits B2.backing s.bit from rfl, e1, e2,
    specHistory_rebase hsize hf cs hcom]
  cases specHistory B1 cs s.bit with
  | error p => rfl
  | ok r =>
    refine congrArg Except.ok ?_
    simp only [rebase_ofBits (Nat.le_of_eq hsize.symm)]

/-- **C35** (format). The value re-based from `u{8n}` to `[u8; n]` is `into_bits().to_le_bytes()`: byte
`k` is bits `8k..8k+8`; and it is what `into_le_bytes()` returns on the array side. -/
theorem C35_le_bytes {n : Nat} (h2 : B2.backing = .arr n) (v : BitVec (8 * n)) :
    ∃ a, (Store.int (8 * n) v).rebase (.arr n) = .arr a ∧ a.length = n ∧
      (∀ k < n, a[k]? = some ((v >>> (8 * k)).setWidth 8)) ∧
      apiIntoE B2 .little (.arr a) = .ok (.arr a) := by
  refine ⟨_, rfl, by simp, fun k hk => ?_, ?_⟩
  · rw [List.getElem?_map, List.getElem?_range hk]
    refine congrArg some ?_
    apply BitVec.eq_of_getLsbD_eq
    intro j hj
    rw [getLsbD_ofBits]
    simp only [hj, decide_true, Bool.true_and, Store.bit, BitVec.getLsbD_setWidth,
      BitVec.getLsbD_ushiftRight]
  · unfold apiIntoE intoConv
    rw [h2]

/-- The fields of `Ex.I` on `[u8; 2]`. -/
def Ex.J : Bitfield := ⟨.arr 2, Ex.I.fields, .big, .big, .big, false⟩

theorem Ex.wfJ : WF Ex.J where
  backing := by simp [Ex.J, Backing.OK]
  field f hf := ⟨(Ex.wfI.field f hf).pos, (Ex.wfI.field f hf).fits, (Ex.wfI.field f hf).int⟩
  disjoint := Ex.wfI.disjoint
  cover := Ex.wfI.cover

theorem Ex.supportedJ : Supported Ex.J where
  field f hf := by
    refine ⟨fun len h => ?_, (Ex.supportedI.field f hf).custom⟩
    exact ⟨((Ex.supportedI.field f hf).array len h).1, fun w hw => by cases hw⟩
  default f hf v hv := by
    simp only [Ex.J, Ex.I, List.mem_cons, List.not_mem_nil, or_false] at hf
    rcases hf with rfl | rfl | rfl | rfl | rfl | rfl <;> cases hv <;>
      simp [AssignOK, SetterOK, DirectOK, Field.isWritable, a, c, r, e, Ex.J]

example (m : Mode) (v : BitVec 16) :
    history m Ex.J [.invert, .setRange 3 9 (.arr [0x34#8, 0x12#8]), .getRange 0 7, .get Ex.b]
        ((Store.int 16 v).rebase (.arr 2)) =
      (history m Ex.I [.invert, .setRange 3 9 (.int 16 0x1234#16), .getRange 0 7, .get Ex.b]
        (.int 16 v)).map fun p => (p.1.map (Out.rebase (.arr 2)), p.2.rebase (.arr 2)) := by
  have h := C35_same_history_partial (B1 := Ex.I) (B2 := Ex.J) m (w := 16) (n := 2) rfl rfl rfl rfl
    Ex.wfI Ex.wfJ Ex.supportedI Ex.supportedJ
    [.invert, .setRange 3 9 (.int 16 0x1234#16), .getRange 0 7, .get Ex.b]
    (by simp [Call.isCommon])
    (by simp [Call.Valid, RangeOK, Ex.I, Ex.b, Store.HasBacking, Field.isReadable]) (.int 16 v) rfl
  have e : (Store.int 16 0x1234#16).rebase (.arr 2) = .arr [0x34#8, 0x12#8] := by decide
  simpa only [List.map_cons, List.map_nil, Call.rebase, e] using h

end Bf
