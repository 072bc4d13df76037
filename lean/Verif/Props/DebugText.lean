import Verif.Lemmas.DebugText
import Verif.Props.Codegen
import Verif.Props.Example

/-!
# The text of `Debug` (C77)
-/

namespace Bf

open Debug Rust Quote

variable {B : Bitfield}

theorem debugVal_shown {f : Field} (g : Bits) : debugVal B.backing f (f.bitsOf g) = shown B g f := by
  unfold debugVal shown
  cases B.backing <;> cases f.ty <;> rfl

theorem shown_congr (hB : WF B) {g h : Bits} (e : ∀ i < B.backing.size, g i = h i) {f : Field} (hf : f ∈ B.fields) :
    shown B g f = shown B h f := by
  have e1 : ∀ i < f.bits, g (f.offset + i) = h (f.offset + i) := fun i hi => e _ (hB.add_lt hf hi)
  have e2 : (fun i => decide (i < f.bits) && g (f.offset + i)) = fun i => decide (i < f.bits) && h (f.offset + i) := by
    funext i
    by_cases hi : i < f.bits
    · rw [e1 i hi]
    · simp [hi]
  unfold shown
  rw [e2, natOf_congr e1]

theorem shown_alike (g h : Bits) (f : Field) : Alike (shown B g f) (shown B h f) := by
  unfold shown
  split
  · exact .arr (by simp [bytesOf])
  · exact .int _ _

/-- **C77** (text). What `{:?}` (or, with `alt`, `{:#?}`) prints for a bitfield `name`: its name and, in braces, each field of the
declaration, in order, with its name and the number formed by its bits (`shown`). -/
theorem C77_text (m : Mode) (hB : WF B) (hS : Supported B) (s : Store) (hs : s.HasBacking B.backing)
    (user : Nat → List Char) (alt : Bool) (name : String) :
    ∃ out, apiDebug m B s = .ok out ∧ text user alt name out =
      struct alt name.toList (B.fields.map fun f => (f.name.toList, value user alt (shown B s.bit f))) := by
  refine ⟨_, by rw [← apiDebug_ok m hB hS, Store.ofBits_bit hs], ?_⟩
  unfold text
  rw [List.map_map]
  exact congrArg _ (List.map_congr_left fun f _ => by simp only [Function.comp_apply, debugVal_shown])

/-- **C77** (one text, one value). Two bitfields of the same type print the same text exactly if all their bits are the
same. -/
theorem C77_tells_apart (m : Mode) (hB : WF B) (hS : Supported B) {s t : Store} (hs : s.HasBacking B.backing)
    (ht : t.HasBacking B.backing) (user : Nat → List Char) (alt : Bool) (name : String) {out out' : List (String × Val)}
    (h : apiDebug m B s = .ok out) (h' : apiDebug m B t = .ok out') :
    text user alt name out = text user alt name out' ↔ s = t := by
  constructor
  · intro e
    obtain ⟨_, h1, h2⟩ := C77_text m hB hS s hs user alt name
    obtain ⟨_, h3, h4⟩ := C77_text m hB hS t ht user alt name
    obtain rfl := Except.ok.inj (h.symm.trans h1)
    obtain rfl := Except.ok.inj (h'.symm.trans h3)
    have key := struct_inj (fun f _ => shown_alike s.bit t.bit f) (h2.symm.trans (e.trans h4))
    rw [← Store.ofBits_bit hs, ← Store.ofBits_bit ht]
    refine Store.ofBits_congr fun i hi => ?_
    obtain ⟨f, hf, hc⟩ := hB.cover i hi
    obtain ⟨c1, c2⟩ := covers_iff.mp hc
    have k := key f hf
    have e3 : ∀ j < f.bits, s.bit (f.offset + j) = t.bit (f.offset + j) := by
      intro j hj
      unfold shown at k
      split at k
      · rename_i n len hb hty
        have k1 := congrArg (fun l : List (BitVec 8) => (l.getD (j / 8) 0#8).getLsbD (j % 8)) (Val.arr.inj k)
        have hl : j < 8 * len := by
          have := ((hS.field f hf).array len hty).1
          omega
        simp only [bytesOf_bit, hl, hj, decide_true, Bool.true_and] at k1
        exact k1
      · exact natOf_inj (Int.ofNat.inj (Val.int.inj k)) j hj
    have := e3 (i - f.offset) (by omega)
    rwa [show f.offset + (i - f.offset) = i by omega] at this
  · rintro rfl
    rw [Except.ok.inj (h.symm.trans h')]

/-- **C77** (values). A field of an unsigned type, or a byte array in a byte array, is shown with the value its getter
returns. Missing: fields of other types (`finding_debug_value`). -/
theorem C77_values_partial (m : Mode) (hB : WF B) (hS : Supported B) {s : Store} (hs : s.HasBacking B.backing) {f : Field}
    (hf : f ∈ B.fields) (hty : (∃ t, f.ty = .int t ∧ t ≠ .bool ∧ t.unsigned = true) ∨
      (∃ n len, B.backing = .arr n ∧ f.ty = .array len)) :
    getX m f s = .ok (shown B s.bit f) := by
  rw [← Store.ofBits_bit hs, getX_eq m hB.backing (hB.field f hf) (hS.field f hf)]
  rw [shown_congr hB (h := s.bit) (fun i hi => Store.bit_ofBits_lt hi) hf]
  rcases hty with ⟨t, h1, h2, h3⟩ | ⟨n, len, h1, h2⟩
  · unfold decode shown
    rw [h1]
    cases hb : B.backing <;> cases t <;> first | exact absurd rfl h2 | simp_all
  · unfold decode shown
    rw [h1, h2]

/-! ## The code of the macro -/

section
variable {m rt : Mode} {fuel : Nat} {cfg : String → Bool} {s : StructSpec} {as : List BitfieldArgSpec} {p : Parsed}

/-- **C77** (emitted code). The `fmt` function the macro emits for a declared struct makes the calls that give this text. -/
theorem C77_emitted (hr : s.Readable) (ha : s.rest = bitfieldTokens as) (hl : s.Legal) (hu : s.Usable)
    (h : parseBitfield m cfg s.attr s.decl = .ok p) (hf : 2 ^ 64 ≤ fuel) (hg : Generates p (.impl .debug))
    (st : Store) (hst : st.HasBacking p.bitfield.backing)
    (user : Nat → List Char) (alt : Bool) (name : String) :
    ∃ out, (program p).call p.bitfield rt fuel .debug st = .ok (.fields out, st) ∧ text user alt name out =
      struct alt name.toList (p.bitfield.fields.map fun f => (f.name.toList, value user alt (shown p.bitfield st.bit f))) := by
  obtain ⟨w1, w2, -⟩ := C52_wf hr ha hl hu h
  obtain ⟨out, h1, h2⟩ := C77_text rt w1 w2 st hst user alt name
  refine ⟨out, ?_, h2⟩
  rw [C54_call hr ha hl hu.compiles h hf (c := .debug) trivial hg st hst]
  simp only [call]
  rw [h1]
  rfl

end

/-! ## What is shown is not what the getters return -/

namespace ExDebug

/-- `#[bitfield(u8)] struct A { #[bits(4)] a: i8, b: bool, #[bits(3, access = wo)] c: u8 }`, order `lsb` -/
def D : Bitfield := ⟨.int 8, [⟨"a", .int .i8, 4, 0, .rw, false, none⟩, ⟨"b", .int .bool, 1, 4, .rw, false, none⟩,
  ⟨"c", .int .u8, 3, 5, .wo, false, none⟩], .big, .big, .big, false⟩

theorem wf : WF D where
  backing := by simp [D, Backing.OK]
  field := by
    intro f hf
    simp only [D, List.mem_cons, List.not_mem_nil, or_false] at hf
    rcases hf with rfl | rfl | rfl <;> exact ⟨by decide, by decide, by intro t ht; cases ht <;> decide⟩
  disjoint := by
    simp only [D, List.pairwise_cons, List.mem_cons, List.not_mem_nil, or_false, forall_eq_or_imp,
      forall_eq, List.Pairwise.nil, and_true, false_imp_iff, implies_true]
    refine ⟨⟨?_, ?_⟩, ?_⟩ <;> exact Ex.disjoint_of_le (by decide)
  cover := by
    intro i hi
    have h : ∀ i < 8, (D.fields.any fun f => f.covers i) = true := by decide
    simpa using h i hi

theorem supported : Supported D where
  field := by
    intro f hf
    simp only [D, List.mem_cons, List.not_mem_nil, or_false] at hf
    rcases hf with rfl | rfl | rfl <;> exact ⟨(by intro _ h; cases h), (by intro _ h; cases h)⟩
  default := by
    intro f hf v hv
    simp only [D, List.mem_cons, List.not_mem_nil, or_false] at hf
    rcases hf with rfl | rfl | rfl <;> cases hv

end ExDebug

/-- The documentation says that `Debug` prints the values of the fields. With `a() == -1` and `b() == true` it prints
`A { a: 15, b: 1, c: 7 }`. -/
theorem finding_debug_value : ∃ (B : Bitfield) (a b : Field) (s : Store), WF B ∧ Supported B ∧ s.HasBacking B.backing ∧
    a ∈ B.fields ∧ b ∈ B.fields ∧ (∀ m, getX m a s = .ok (.int (-1)) ∧ getX m b s = .ok (.bool true)) ∧
    ∀ m user, ∃ out, apiDebug m B s = .ok out ∧ text user false "A" out = "A { a: 15, b: 1, c: 7 }".toList := by
  refine ⟨ExDebug.D, _, _, .int 8 0xFF#8, ExDebug.wf, ExDebug.supported, rfl, .head _, .tail _ (.head _), ?_, ?_⟩
  · intro m
    cases m <;> exact ⟨by decide +kernel, by decide +kernel⟩
  · intro m user
    obtain ⟨out, h1, h2⟩ := C77_text m ExDebug.wf ExDebug.supported (.int 8 0xFF#8) rfl user false "A"
    exact ⟨out, h1, by rw [h2]; rfl⟩

/-- The documentation says that `Debug` prints the readable fields. It also prints the others: whatever the bitfield, two states
that differ in a field without getter print different texts. -/
theorem finding_debug_hidden (m : Mode) (hB : WF B) (hS : Supported B) {s t : Store} (hs : s.HasBacking B.backing)
    (ht : t.HasBacking B.backing) (user : Nat → List Char) (alt : Bool) (name : String) {f : Field} (_ : f ∈ B.fields)
    (_ : f.isReadable = false) {i : Nat} (_ : i < f.bits) (h : s.bit (f.offset + i) ≠ t.bit (f.offset + i)) :
    ∃ out out', apiDebug m B s = .ok out ∧ apiDebug m B t = .ok out' ∧ text user alt name out ≠ text user alt name out' := by
  obtain ⟨out, h1, -⟩ := C77_text m hB hS s hs user alt name
  obtain ⟨out', h2, -⟩ := C77_text m hB hS t ht user alt name
  refine ⟨out, out', h1, h2, fun e => h ?_⟩
  rw [(C77_tells_apart m hB hS hs ht user alt name h1 h2).mp e]

/-! ## Examples -/

example (user : Nat → List Char) : ∃ out out', apiDebug .checked ExDebug.D (.int 8 0x20#8) = .ok out ∧
    apiDebug .checked ExDebug.D (.int 8 0#8) = .ok out' ∧ text user true "A" out ≠ text user true "A" out' :=
  finding_debug_hidden .checked ExDebug.wf ExDebug.supported (s := .int 8 0x20#8) (t := .int 8 0#8) rfl rfl user true "A"
    (f := ⟨"c", .int .u8, 3, 5, .wo, false, none⟩) (.tail _ (.tail _ (.head _))) rfl (i := 0) (by decide) (by decide)

example (user : Nat → List Char) : ∃ out, apiDebug .wrapping ExDebug.D (.int 8 0x5A#8) = .ok out ∧
    text user true "A" out = "A {\n    a: 10,\n    b: 1,\n    c: 2,\n}".toList := by
  obtain ⟨out, h1, h2⟩ := C77_text .wrapping ExDebug.wf ExDebug.supported (.int 8 0x5A#8) rfl user true "A"
  exact ⟨out, h1, by rw [h2]; rfl⟩

/-- An array-backed one; the array field is printed as a list. -/
example (user : Nat → List Char) : ∃ out, apiDebug .wrapping Ex.A (.arr [1#8, 2#8, 3#8]) = .ok out ∧
    text user true "A" out = "A {\n    p: 1,\n    q: [\n        129,\n    ],\n    s: 1,\n    t: 0,\n    _u: 0,\n}".toList := by
  obtain ⟨out, h1, h2⟩ := C77_text .wrapping Ex.wfA Ex.supportedA (.arr [1#8, 2#8, 3#8]) rfl user true "A"
  exact ⟨out, h1, by rw [h2]; rfl⟩

/-- The two states are told apart, by `{:?}` and by `{:#?}`. -/
example (user : Nat → List Char) (alt : Bool) (v w : BitVec 16) : ∃ out out', apiDebug .checked Ex.I (.int 16 v) = .ok out ∧
    apiDebug .checked Ex.I (.int 16 w) = .ok out' ∧ (text user alt "I" out = text user alt "I" out' ↔ v = w) := by
  obtain ⟨out, h1, -⟩ := C77_text .checked Ex.wfI Ex.supportedI (.int 16 v) rfl user alt "I"
  obtain ⟨out', h2, -⟩ := C77_text .checked Ex.wfI Ex.supportedI (.int 16 w) rfl user alt "I"
  refine ⟨out, out', h1, h2, ?_⟩
  rw [C77_tells_apart .checked Ex.wfI Ex.supportedI (s := .int 16 v) (t := .int 16 w) rfl rfl user alt "I" h1 h2]
  simp

example (s : Store) (hs : s.HasBacking (.arr 3)) : getX .checked Ex.q s = .ok (shown Ex.A s.bit Ex.q) :=
  C77_values_partial .checked Ex.wfA Ex.supportedA hs (.tail _ (.head _)) (.inr ⟨3, 1, rfl, rfl⟩)

example (rt : Mode) (st : Store) (user : Nat → List Char) : ∀ p,
    parseBitfield .checked (fun _ => false) ExR.R.attr ExR.R.decl = .ok p → st.HasBacking p.bitfield.backing →
    ∃ out, (program p).call p.bitfield rt (2 ^ 64) .debug st = .ok (.fields out, st) ∧ text user false "R" out =
      struct false ['R'] (p.bitfield.fields.map fun f => (f.name.toList, value user false (shown p.bitfield st.bit f))) := by
  intro p hp hst
  refine C77_emitted ExR.readable rfl ExR.legal ExR.usable hp (Nat.le_refl _) ?_ st hst user false "R"
  cases hp
  exact ⟨.pub, by decide⟩

end Bf
