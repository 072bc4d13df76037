import Verif.Spec

/-!
# Two concrete bitfields

They are used beside the theorems to show that the hypotheses are met by realistic
declarations.
-/

namespace Bf

/-- A user type whose values are their own bits, e.g. a newtype over `u8`. -/
def idCodec : Codec := { fromBits := fun n => .ok n, intoBits := fun c => c }

namespace Ex

/-- `#[bits(4, default = 5)] a: u8` -/
def a : Field := ⟨"a", .int .u8, 4, 0, .rw, false, some (.int 5)⟩
/-- `#[bits(3)] b: i8` -/
def b : Field := ⟨"b", .int .i8, 3, 4, .rw, false, none⟩
/-- `#[bits(1, default = true, access = ro)] c: bool` -/
def c : Field := ⟨"c", .int .bool, 1, 7, .ro, false, some (.bool true)⟩
/-- `#[bits(2, access = wo)] d: Custom` -/
def d : Field := ⟨"d", .custom idCodec, 2, 8, .wo, false, none⟩
/-- `#[bits(2, default = 2)] _r: u8` -/
def r : Field := ⟨"_r", .int .u8, 2, 10, .ro, true, some (.int 2)⟩
/-- `#[bits(4, default = 9, access = na)] e: u8` -/
def e : Field := ⟨"e", .int .u8, 4, 12, .na, false, some (.int 9)⟩

/-- A `#[bitfield(u16)]` with fields `a b c d _r e`. -/
def I : Bitfield := ⟨.int 16, [a, b, c, d, r, e], .big, .big, .big, false⟩

/-- `#[bits(9)] p: u16` -/
def p : Field := ⟨"p", .int .u16, 9, 0, .rw, false, none⟩
/-- `q: [u8; 1]` -/
def q : Field := ⟨"q", .array 1, 8, 9, .rw, false, some (.arr [0xA5#8])⟩
/-- `#[bits(4, default = -3, access = ro)] s: i8` -/
def s : Field := ⟨"s", .int .i8, 4, 17, .ro, false, some (.int (-3))⟩
/-- `#[bits(access = wo)] t: bool` -/
def t : Field := ⟨"t", .int .bool, 1, 21, .wo, false, none⟩
/-- `#[bits(2)] _u: Custom` -/
def u : Field := ⟨"_u", .custom idCodec, 2, 22, .rw, true, none⟩

/-- A `#[bitfield([u8; 3])]` with fields `p q s t _u`. -/
def A : Bitfield := ⟨.arr 3, [p, q, s, t, u], .big, .little, .little, false⟩

theorem idCodec_lawful (n : Nat) : idCodec.Lawful n := by
  intro k hk
  refine ⟨k, rfl, ?_⟩
  show (k : Int) % 2 ^ n = k
  have e : (2 : Int) ^ n = ((2 ^ n : Nat) : Int) := by push_cast; rfl
  rw [e, ← Int.natCast_emod, Nat.mod_eq_of_lt hk]

theorem disjoint_of_le {f g : Field} (h : f.offset + f.bits ≤ g.offset) : f.Disjoint g := by
  intro i ⟨h1, h2⟩
  simp only [Field.covers, Bool.and_eq_true, decide_eq_true_eq] at h1 h2
  omega

theorem wfI : WF I where
  backing := by simp [I, Backing.OK]
  field := by
    intro f hf
    simp only [I, List.mem_cons, List.not_mem_nil, or_false] at hf
    rcases hf with rfl | rfl | rfl | rfl | rfl | rfl <;>
      exact ⟨by decide, by decide, by intro t ht; cases ht <;> decide⟩
  disjoint := by
    simp only [I, List.pairwise_cons, List.mem_cons, List.not_mem_nil, or_false, forall_eq_or_imp,
      forall_eq, List.Pairwise.nil, and_true, false_imp_iff, implies_true]
    refine ⟨⟨?_, ?_, ?_, ?_, ?_⟩, ⟨?_, ?_, ?_, ?_⟩, ⟨?_, ?_, ?_⟩, ⟨?_, ?_⟩, ?_⟩ <;>
      exact disjoint_of_le (by decide)
  cover := by
    intro i hi
    have h : ∀ i < 16, (I.fields.any fun f => f.covers i) = true := by decide
    simpa using h i hi

theorem supportedI : Supported I where
  field := by
    intro f hf
    simp only [I, List.mem_cons, List.not_mem_nil, or_false] at hf
    rcases hf with rfl | rfl | rfl | rfl | rfl | rfl <;>
      exact ⟨(by intro _ h; cases h), (by intro _ h; cases h <;> decide)⟩
  default := by
    intro f hf v hv
    simp only [I, List.mem_cons, List.not_mem_nil, or_false] at hf
    rcases hf with rfl | rfl | rfl | rfl | rfl | rfl <;> cases hv <;>
      simp [AssignOK, SetterOK, DirectOK, Field.isWritable, a, c, r, e, I]

theorem lawfulI : Lawful I := by
  intro f hf
  simp only [I, List.mem_cons, List.not_mem_nil, or_false] at hf
  rcases hf with rfl | rfl | rfl | rfl | rfl | rfl <;> intro c hc <;> cases hc <;>
    exact idCodec_lawful _

theorem wfA : WF A where
  backing := by simp [A, Backing.OK]
  field := by
    intro f hf
    simp only [A, List.mem_cons, List.not_mem_nil, or_false] at hf
    rcases hf with rfl | rfl | rfl | rfl | rfl <;>
      exact ⟨by decide, by decide, by intro t ht; cases ht <;> decide⟩
  disjoint := by
    simp only [A, List.pairwise_cons, List.mem_cons, List.not_mem_nil, or_false, forall_eq_or_imp,
      forall_eq, List.Pairwise.nil, and_true, false_imp_iff, implies_true]
    refine ⟨⟨?_, ?_, ?_, ?_⟩, ⟨?_, ?_, ?_⟩, ⟨?_, ?_⟩, ?_⟩ <;>
      exact disjoint_of_le (by decide)
  cover := by
    intro i hi
    have h : ∀ i < 24, (A.fields.any fun f => f.covers i) = true := by decide
    simpa using h i hi

theorem supportedA : Supported A where
  field := by
    intro f hf
    simp only [A, List.mem_cons, List.not_mem_nil, or_false] at hf
    rcases hf with rfl | rfl | rfl | rfl | rfl <;>
      refine ⟨?_, by intro _ h; cases h <;> decide⟩ <;> intro len h <;> cases h
    exact ⟨by decide, fun w h => by cases h⟩
  default := by
    intro f hf v hv
    simp only [A, List.mem_cons, List.not_mem_nil, or_false] at hf
    rcases hf with rfl | rfl | rfl | rfl | rfl <;> cases hv <;>
      simp [AssignOK, SetterOK, DirectOK, Field.isWritable, q, s, A]

theorem lawfulA : Lawful A := by
  intro f hf
  simp only [A, List.mem_cons, List.not_mem_nil, or_false] at hf
  rcases hf with rfl | rfl | rfl | rfl | rfl <;> intro c hc <;> cases hc <;>
    exact idCodec_lawful _

end Ex

end Bf
