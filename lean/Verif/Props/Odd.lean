import Verif.Props.AnyLayout
import Verif.Lemmas.Odd

/-!
# C66: what accessors of unsupported shapes do

`StructSpec.Usable` excludes byte array fields in an integer whose width is not a multiple of 8 or which are longer than
16 bytes, byte array fields wider than their type, and user types in more than 128 bits. The macro accepts all of them.
The theorems below say exactly what the generated code does with them.
-/

namespace Bf

open Rust Quote

variable {m rt : Mode} {cfg : String → Bool} {s : StructSpec} {p : Parsed} {as : List BitfieldArgSpec}
  {f : FieldSpec} {o : Nat} {fuel : Nat}

theorem emitted_get (hr : s.Readable) (ha : s.rest = bitfieldTokens as) (hl : s.Legal) (hu : s.Compiles)
    (h : parseBitfield m cfg s.attr s.decl = .ok p) (hfuel : 2 ^ 64 ≤ fuel) (hf : s.At (orderValue cfg as) f o)
    (hR : f.CanRead) {st : Store} (hst : st.HasBacking p.bitfield.backing) :
    (program p).call p.bitfield rt fuel (.get (f.parsed o)) st =
      liftE ((getX rt (f.parsed o) st).map fun v => (.val v, st)) := by
  have C := StructSpec.compiled hr ha hl hu h
  have hg : f.parsed o ∈ p.bitfield.fields := (C.fields _).mpr ⟨f, o, hf, rfl⟩
  have hR' := isReadable_parsed (o := o) hR
  have hgen : Generates p (.acc .get f.name) := (C05_getters hr h _).mpr ⟨f, At.mem hf, rfl, hR⟩
  rw [C54_call hr ha hl hu h hfuel (c := .get (f.parsed o)) ⟨hg, hR'.2, hR'.1⟩ hgen st hst]
  simp only [call]
  cases getX rt (f.parsed o) st <;> rfl

theorem emitted_set (hr : s.Readable) (ha : s.rest = bitfieldTokens as) (hl : s.Legal) (hu : s.Compiles)
    (h : parseBitfield m cfg s.attr s.decl = .ok p) (hfuel : 2 ^ 64 ≤ fuel) (hf : s.At (orderValue cfg as) f o)
    (hW : f.CanWrite) {v : Val} (hv : f.ty.Contains v) {st : Store} (hst : st.HasBacking p.bitfield.backing) :
    (program p).call p.bitfield rt fuel (.set (f.parsed o) v) st =
      liftE ((setX rt (f.parsed o) st v).map fun st' => (.unit, st')) := by
  have C := StructSpec.compiled hr ha hl hu h
  have hg : f.parsed o ∈ p.bitfield.fields := (C.fields _).mpr ⟨f, o, hf, rfl⟩
  have hW' := (isWritable_parsed (o := o) hf.1).mpr hW
  have hgen : Generates p (.acc .set f.name) := (C05_setters hr h _).1.mpr ⟨f, At.mem hf, rfl, hW⟩
  rw [C54_call hr ha hl hu h hfuel (c := .set (f.parsed o) v) ⟨hg, hW', hasType_data hv⟩ hgen st hst]
  simp only [call]
  cases setX rt (f.parsed o) st v <;> rfl

/-- The storage of the struct, and that the field is a field of it. -/
theorem odd_facts (hr : s.Readable) (ha : s.rest = bitfieldTokens as) (hl : s.Legal) (hu : s.Compiles)
    (h : parseBitfield m cfg s.attr s.decl = .ok p) (hf : s.At (orderValue cfg as) f o) :
    p.bitfield.backing = s.storage.data.backing ∧ p.bitfield.backing.OK ∧ f.parsed o ∈ p.bitfield.fields ∧
      FieldOK p.bitfield.backing (f.parsed o) := by
  obtain ⟨_, size, hs, hty, hp⟩ := StructSpec.parsed hr (.inr hl.small) h
  have C := StructSpec.compiled hr ha hl hu h
  have hg : f.parsed o ∈ p.bitfield.fields := (C.fields _).mpr ⟨f, o, hf, rfl⟩
  exact ⟨congrArg DataType.backing hty, C.wf.backing, hg, C.wf.field _ hg⟩

/-! ## C66 -/

/-- **C66** (byte arrays in an integer, reading). The getter returns the bits of the field, cut to the array. If the
array has more than 16 bytes, it panics; without overflow checks it repeats the first 16 bytes instead. -/
theorem C66_array_get (hr : s.Readable) (ha : s.rest = bitfieldTokens as) (hl : s.Legal) (hu : s.Compiles)
    (h : parseBitfield m cfg s.attr s.decl = .ok p) (hfuel : 2 ^ 64 ≤ fuel) (hf : s.At (orderValue cfg as) f o)
    {u : IntTy} (hs : s.storage = .int u) {len : Nat} (ht : f.ty = .bytes len) (hR : f.CanRead) :
    ∃ g ∈ p.bitfield.fields, g.name = f.name ∧ ∀ st : Store, st.HasBacking p.bitfield.backing →
      (len ≤ 16 ∨ rt = .wrapping → (program p).call p.bitfield rt fuel (.get g) st =
        .ok (.val (.arr (bytesOf len fun i => decide (i % 128 < f.width) && st.bit (o + i % 128))), st)) ∧
      (16 < len → rt = .checked → (program p).call p.bitfield rt fuel (.get g) st = .error (.panic .shift)) := by
  obtain ⟨hb, hok, hg, hfo⟩ := odd_facts hr ha hl hu h hf
  have hb' : p.bitfield.backing = .int u.bitSize := by rw [hb, hs]; rfl
  refine ⟨f.parsed o, hg, rfl, fun st hst => ?_⟩
  rw [emitted_get hr ha hl hu h hfuel hf hR hst]
  rw [hb'] at hok hfo hst
  obtain ⟨x, rfl⟩ := Store.cases_ofBits hst
  have ht' : (f.parsed o).ty = .array len := by show f.ty.data = _; rw [ht]; rfl
  rw [getX_array_int rt hok hfo ht']
  have fin : ∀ j < 8 * len, (ofBits 128 fun i => decide (i < (f.parsed o).bits) && x ((f.parsed o).offset + i)).getLsbD (j % 128) =
      (decide (j % 128 < f.width) && (Store.ofBits (.int u.bitSize) x).bit (o + j % 128)) := by
    intro j _
    rw [getLsbD_ofBits]
    by_cases hj : j % 128 < f.width
    · have hfit : o + f.width ≤ u.bitSize := hfo.fits
      rw [Store.bit_ofBits_lt (b := .int u.bitSize) (show o + j % 128 < u.bitSize by omega)]
      simp [hj, Nat.mod_lt, FieldSpec.parsed]
    · simp [hj, FieldSpec.parsed]
  refine ⟨fun hc => ?_, fun h16 hc => ?_⟩
  · have e : unpack rt len (ofBits 128 fun i => decide (i < (f.parsed o).bits) && x ((f.parsed o).offset + i)) =
        .ok (bytesOf len fun j => (ofBits 128 fun i => decide (i < (f.parsed o).bits) &&
          x ((f.parsed o).offset + i)).getLsbD (j % 128)) := by
      cases rt with
      | wrapping => exact unpack_wrapping _
      | checked =>
        have hlen : len ≤ 16 := by rcases hc with h | h; exact h; cases h
        rw [unpack_eq .checked _ hlen]
        refine congrArg _ (bytesOf_congr fun j hj => ?_)
        rw [Nat.mod_eq_of_lt (by omega)]
    rw [e, bytesOf_congr fin]
    rfl
  · subst hc
    rw [unpack_checked _ h16]
    rfl

/-- **C66** (byte arrays in an integer, writing). The setter stores the whole bytes that fit into the field and sets the
other bits of the field to zero. -/
theorem C66_array_set (hr : s.Readable) (ha : s.rest = bitfieldTokens as) (hl : s.Legal) (hu : s.Compiles)
    (h : parseBitfield m cfg s.attr s.decl = .ok p) (hfuel : 2 ^ 64 ≤ fuel) (hf : s.At (orderValue cfg as) f o)
    {u : IntTy} (hs : s.storage = .int u) {len : Nat} (ht : f.ty = .bytes len) (hW : f.CanWrite) :
    ∃ g ∈ p.bitfield.fields, g.name = f.name ∧ ∀ (st : Store) (a : List (BitVec 8)),
      st.HasBacking p.bitfield.backing → a.length = len →
      ∃ st', (program p).call p.bitfield rt fuel (.set g (.arr a)) st = .ok (.unit, st') ∧
        st'.HasBacking p.bitfield.backing ∧
        ∀ i < p.bitfield.backing.size, st'.bit i =
          if o ≤ i ∧ i < o + f.width then decide (i - o < 8 * (f.width / 8)) && f.ty.write (.arr a) (i - o)
          else st.bit i := by
  obtain ⟨hb, hok, hg, hfo⟩ := odd_facts hr ha hl hu h hf
  have hb' : p.bitfield.backing = .int u.bitSize := by rw [hb, hs]; rfl
  refine ⟨f.parsed o, hg, rfl, fun st a hst hal => ?_⟩
  rw [emitted_set hr ha hl hu h hfuel hf hW (v := .arr a) (by rw [ht]; exact hal) hst]
  have ht' : (f.parsed o).ty = .array len := by show f.ty.data = _; rw [ht]; rfl
  rw [hb'] at hok hfo hst ⊢
  obtain ⟨x, rfl⟩ := Store.cases_ofBits hst
  rw [setX_array_int rt hok hfo ht' hal]
  refine ⟨_, rfl, Store.hasBacking_ofBits _ _, fun i hi => ?_⟩
  rw [Store.bit_ofBits_lt hi, Store.bit_ofBits_lt hi]
  simp only [overwrite, Field.covers, Bool.and_eq_true, decide_eq_true_eq]
  show (if o ≤ i ∧ i < o + f.width then (decide (i - o < 8 * min (f.width / 8) len) &&
    (a.getD ((i - o) / 8) 0#8).getLsbD ((i - o) % 8)) else x i) = if o ≤ i ∧ i < o + f.width then
      (decide (i - o < 8 * (f.width / 8)) && (a.getD ((i - o) / 8) 0#8).getLsbD ((i - o) % 8)) else x i
  congr 1
  by_cases hlt : i - o < 8 * len
  · have : (i - o < 8 * min (f.width / 8) len) ↔ i - o < 8 * (f.width / 8) := by omega
    simp only [this]
  · simp [List.getElem?_eq_none (l := a) (i := (i - o) / 8) (by omega)]

/-- **C66** (byte arrays narrower than their field, in a byte array). Getter and setter panic. -/
theorem C66_array_wide (hr : s.Readable) (ha : s.rest = bitfieldTokens as) (hl : s.Legal) (hu : s.Compiles)
    (h : parseBitfield m cfg s.attr s.decl = .ok p) (hfuel : 2 ^ 64 ≤ fuel) (hf : s.At (orderValue cfg as) f o)
    {n : Nat} (hs : s.storage = .bytes n) {len : Nat} (ht : f.ty = .bytes len) (hw : 8 * len < f.width) :
    ∃ g ∈ p.bitfield.fields, g.name = f.name ∧ ∀ st : Store, st.HasBacking p.bitfield.backing →
      (f.CanRead → (program p).call p.bitfield rt fuel (.get g) st = .error (.panic .index)) ∧
      (f.CanWrite → ∀ a : List (BitVec 8), a.length = len →
        (program p).call p.bitfield rt fuel (.set g (.arr a)) st = .error (.panic .index)) := by
  obtain ⟨hb, hok, hg, hfo⟩ := odd_facts hr ha hl hu h hf
  have hb' : p.bitfield.backing = .arr n := by rw [hb, hs]; rfl
  have ht' : (f.parsed o).ty = .array len := by show f.ty.data = _; rw [ht]; rfl
  refine ⟨f.parsed o, hg, rfl, fun st hst => ⟨fun hR => ?_, fun hW a hal => ?_⟩⟩
  · rw [emitted_get hr ha hl hu h hfuel hf hR hst]
    rw [hb'] at hok hfo hst
    obtain ⟨x, rfl⟩ := Store.cases_ofBits hst
    rw [getX_array_wide rt hok hfo ht' hw]
    rfl
  · rw [emitted_set hr ha hl hu h hfuel hf hW (v := .arr a) (by rw [ht]; exact hal) hst]
    rw [hb'] at hok hfo hst
    obtain ⟨x, rfl⟩ := Store.cases_ofBits hst
    rw [setX_array_wide rt hok hfo ht' hal hw]
    rfl

/-- **C66** (user types in more than 128 bits, with overflow checks). Getter and setter panic. -/
theorem C66_custom_checked (hr : s.Readable) (ha : s.rest = bitfieldTokens as) (hl : s.Legal) (hu : s.Compiles)
    (h : parseBitfield m cfg s.attr s.decl = .ok p) (hfuel : 2 ^ 64 ≤ fuel) (hf : s.At (orderValue cfg as) f o)
    {n : Nat} (hs : s.storage = .bytes n) {name : String} {c : Codec} (ht : f.ty = .custom name c)
    (hw : 128 < f.width) :
    ∃ g ∈ p.bitfield.fields, g.name = f.name ∧ ∀ st : Store, st.HasBacking p.bitfield.backing →
      (f.CanRead → (program p).call p.bitfield .checked fuel (.get g) st = .error (.panic .shift)) ∧
      (f.CanWrite → ∀ code,
        (program p).call p.bitfield .checked fuel (.set g (.custom code)) st = .error (.panic .shift)) := by
  obtain ⟨hb, hok, hg, hfo⟩ := odd_facts hr ha hl hu h hf
  have hb' : p.bitfield.backing = .arr n := by rw [hb, hs]; rfl
  have ht' : (f.parsed o).ty = .custom c := by show f.ty.data = _; rw [ht]; rfl
  refine ⟨f.parsed o, hg, rfl, fun st hst => ⟨fun hR => ?_, fun hW code => ?_⟩⟩
  · rw [emitted_get hr ha hl hu h hfuel hf hR hst]
    rw [hb'] at hok hfo hst
    obtain ⟨x, rfl⟩ := Store.cases_ofBits hst
    rw [getX_custom_checked hok hfo ht' hw]
    rfl
  · rw [emitted_set hr ha hl hu h hfuel hf hW (v := .custom code) (by rw [ht]; trivial) hst]
    rw [hb'] at hok hfo hst
    obtain ⟨x, rfl⟩ := Store.cases_ofBits hst
    rw [setX_custom_checked ht' hw]
    rfl

/-- **C66** (user types in more than 128 bits, without overflow checks). The getter converts the bits of the field, put
over one another in steps of 128. The setter passes only the lowest `width % 128` bits of the value through the user's
conversions and stores the 128 bits it gets back again and again. -/
theorem C66_custom_wrapping (hr : s.Readable) (ha : s.rest = bitfieldTokens as) (hl : s.Legal) (hu : s.Compiles)
    (h : parseBitfield m cfg s.attr s.decl = .ok p) (hfuel : 2 ^ 64 ≤ fuel) (hf : s.At (orderValue cfg as) f o)
    {n : Nat} (hs : s.storage = .bytes n) {name : String} {c : Codec} (ht : f.ty = .custom name c)
    (hw : 128 < f.width) :
    ∃ g ∈ p.bitfield.fields, g.name = f.name ∧ ∀ st : Store, st.HasBacking p.bitfield.backing →
      (f.CanRead → (program p).call p.bitfield .wrapping fuel (.get g) st =
        liftE ((c.fromBits (natOf 128 (folded f.width fun i => st.bit (o + i)))).map fun code => (.val (.custom code), st))) ∧
      (f.CanWrite → ∀ code,
        match c.fromBits (natOf (f.width % 128) (intBit (c.intoBits code))) with
        | .error q => (program p).call p.bitfield .wrapping fuel (.set g (.custom code)) st = liftE (.error q)
        | .ok code' => ∃ st', (program p).call p.bitfield .wrapping fuel (.set g (.custom code)) st = .ok (.unit, st') ∧
          st'.HasBacking p.bitfield.backing ∧
          ∀ i < p.bitfield.backing.size, st'.bit i =
            if o ≤ i ∧ i < o + f.width then intBit (c.intoBits code') ((i - o) % 128) else st.bit i) := by
  obtain ⟨hb, hok, hg, hfo⟩ := odd_facts hr ha hl hu h hf
  have hb' : p.bitfield.backing = .arr n := by rw [hb, hs]; rfl
  have ht' : (f.parsed o).ty = .custom c := by show f.ty.data = _; rw [ht]; rfl
  refine ⟨f.parsed o, hg, rfl, fun st hst => ⟨fun hR => ?_, fun hW code => ?_⟩⟩
  · rw [emitted_get hr ha hl hu h hfuel hf hR hst]
    rw [hb'] at hok hfo hst
    have hfit : o + f.width ≤ 8 * n := hfo.fits
    obtain ⟨x, rfl⟩ := Store.cases_ofBits hst
    rw [getX_custom_wrapping hok hfo ht']
    have e : folded (f.parsed o).bits (fun k => x ((f.parsed o).offset + k)) =
        folded f.width fun i => (Store.ofBits (.arr n) x).bit (o + i) := by
      funext j
      show (List.range f.width).any _ = (List.range f.width).any _
      rw [Bool.eq_iff_iff]
      simp only [List.any_eq_true, List.mem_range]
      refine exists_congr fun k => and_congr_right fun hk => ?_
      rw [Store.bit_ofBits_lt (b := .arr n) (show o + k < 8 * n by omega)]
      rfl
    rw [e]
    cases c.fromBits (natOf 128 (folded f.width fun i => (Store.ofBits (.arr n) x).bit (o + i))) <;> rfl
  · rw [emitted_set hr ha hl hu h hfuel hf hW (v := .custom code) (by rw [ht]; trivial) hst]
    rw [hb'] at hok hfo hst ⊢
    obtain ⟨x, rfl⟩ := Store.cases_ofBits hst
    rw [setX_custom_wrapping hok hfo ht' hw]
    have e : (f.parsed o).bits = f.width := rfl
    rw [e]
    cases c.fromBits (natOf (f.width % 128) (intBit (c.intoBits code))) with
    | error q => rfl
    | ok code' =>
      refine ⟨_, rfl, Store.hasBacking_ofBits _ _, fun i hi => ?_⟩
      rw [Store.bit_ofBits_lt hi, Store.bit_ofBits_lt hi]
      simp only [overwrite, Field.covers, Bool.and_eq_true, decide_eq_true_eq]
      rfl

theorem breaks_parsed (hr : s.Readable) (ha : s.rest = bitfieldTokens as) (hl : s.Legal) (hu : s.Compiles)
    (h : parseBitfield m cfg s.attr s.decl = .ok p) (hf : s.At (orderValue cfg as) f o) (hB : s.Breaks rt f) :
    Breaks rt p.bitfield.backing (f.parsed o) := by
  obtain ⟨hb, -⟩ := odd_facts hr ha hl hu h hf
  rw [hb]
  unfold StructSpec.Breaks at hB
  cases hs : s.storage <;> cases ht : f.ty <;> rw [hs, ht] at hB <;> try exact hB.elim
  · simp only [Breaks, FieldSpec.parsed, ht, TypeSpec.data, DataType.backing]
    refine ⟨hB.1, ?_, hB.2.2⟩
    have := (isWritable_parsed (o := o) hf.1).mpr hB.2.1
    rw [hasSetter_eq]
    exact this
  · simp only [Breaks, FieldSpec.parsed, ht, TypeSpec.data, DataType.backing]
    exact hB
  · simp only [Breaks, FieldSpec.parsed, ht, TypeSpec.data, DataType.backing]
    exact hB

/-- **C66** (such a bitfield cannot be made). If the code of one field does not run, then no constructor, conversion or
builder of the bitfield returns one, whatever its arguments, except `default()` without the `new` functions. -/
theorem C66_unmade (hr : s.Readable) (ha : s.rest = bitfieldTokens as) (hl : s.Legal) (hu : s.Compiles)
    (h : parseBitfield m cfg s.attr s.decl = .ok p) (hT : UserConversions p.bitfield) (hfuel : 2 ^ 64 ≤ fuel)
    (hf : s.At (orderValue cfg as) f o) (hB : s.Breaks rt f)
    {og : Origin} (ho : og.Typed p.bitfield) (hw : og.Fits (genOf p)) (hg : Generates p (og.tag p.bob))
    (hd : og ≠ .default false) {st : Store} (hst : st.HasBacking p.bitfield.backing) :
    (∃ q, (program p).make p.bitfield rt fuel og st = .error (.panic q)) ∨
      ∃ msg, (program p).make p.bitfield rt fuel og st = .ok (.error msg) := by
  have C := StructSpec.compiled hr ha hl hu h
  have hm : f.parsed o ∈ p.bitfield.fields := (C.fields _).mpr ⟨f, o, hf, rfl⟩
  rw [C54_make_partial hr ha hl hu h hfuel ho hw hg st hst]
  have := breaks_origin (C.tame hT) hm (breaks_parsed hr ha hl hu h hf hB) ho hd
  cases hx : og.run rt p.bitfield with
  | ok r =>
    rw [hx] at this
    cases r with
    | ok s' => exact (show False from this).elim
    | error msg => exact .inr ⟨msg, rfl⟩
  | error q =>
    rw [hx] at this
    have : q ≠ .rejected := this
    cases q <;> first | exact absurd rfl this | exact .inl ⟨_, rfl⟩

theorem at_of_breaks (hr : s.Readable) (ha : s.rest = bitfieldTokens as) (hl : s.Legal) (hu : s.Compiles)
    (h : parseBitfield m cfg s.attr s.decl = .ok p) (hn : ∀ f o, s.At (orderValue cfg as) f o → ¬ s.Breaks rt f) :
    ∀ g ∈ p.bitfield.fields, ¬ Breaks rt p.bitfield.backing g := by
  intro g hg hB
  obtain ⟨f, o, hf, rfl⟩ := ((StructSpec.compiled hr ha hl hu h).fields g).mp hg
  refine hn f o hf ?_
  obtain ⟨hb, -⟩ := odd_facts hr ha hl hu h hf
  rw [hb] at hB
  unfold StructSpec.Breaks
  cases hs : s.storage <;> cases ht : f.ty <;>
    simp only [Breaks, FieldSpec.parsed, hs, ht, TypeSpec.data, DataType.backing] at hB ⊢
  · rw [hasSetter_eq] at hB
    exact ⟨hB.1, (isWritable_parsed (o := o) hf.1).mp hB.2.1, hB.2.2⟩
  · exact hB
  · exact hB
  all_goals (have := hl.storage; rw [hs] at this; exact this.elim)

/-- **C66** (exactly these cannot be made). If the user's conversions accept all bits, then `new()`,
`new_without_defaults()` and the `from_bits`/`from_bytes` functions return a bitfield if and only if the code of every
field runs. -/
theorem C66_made (hr : s.Readable) (ha : s.rest = bitfieldTokens as) (hl : s.Legal) (hu : s.Compiles)
    (h : parseBitfield m cfg s.attr s.decl = .ok p) (hfuel : 2 ^ 64 ≤ fuel)
    (hA : ∀ f ∈ s.fields, ∀ name c, f.ty = .custom name c → ∀ n, ∃ code, c.fromBits n = .ok code)
    {og : Origin} (hog : og = .new ∨ og = .newWithoutDefaults ∨ ∃ e d x, og = .from e d x)
    (ho : og.Typed p.bitfield) (hg : Generates p (og.tag p.bob)) {st : Store} (hst : st.HasBacking p.bitfield.backing) :
    (∃ st', (program p).make p.bitfield rt fuel og st = .ok (.ok st')) ↔
      ∀ f o, s.At (orderValue cfg as) f o → ¬ s.Breaks rt f := by
  have C := StructSpec.compiled hr ha hl hu h
  have hw : og.Fits (genOf p) := by
    rcases hog with rfl | rfl | ⟨e, d, x, rfl⟩ <;> trivial
  have hacc : ∀ g ∈ p.bitfield.fields, Accepting g := by
    intro g hg c hc n
    obtain ⟨f, o, hf, rfl⟩ := (C.fields g).mp hg
    have hc : f.ty.data = .custom c := hc
    cases ht : f.ty with
    | int t => rw [ht] at hc; cases hc
    | bytes len => rw [ht] at hc; cases hc
    | custom name c' => rw [ht] at hc; cases hc; exact hA f (At.mem hf) name c ht n
  have hT : UserConversions p.bitfield := by
    intro g hg c hc n e
    obtain ⟨code, e'⟩ := hacc g hg c hc n
    rw [e'] at e
    cases e
  constructor
  · rintro ⟨st', hx⟩ f o hf hB
    have := C66_unmade hr ha hl hu h hT hfuel hf hB ho hw hg
      (by rcases hog with rfl | rfl | ⟨e, d, x, rfl⟩ <;> intro e <;> cases e) hst
    rw [hx] at this
    rcases this with ⟨q, e⟩ | ⟨msg, e⟩ <;> cases e
  · intro hn
    have S : Sound rt p.bitfield := ⟨C.tame hT, hacc, at_of_breaks hr ha hl hu h hn⟩
    rw [C54_make_partial hr ha hl hu h hfuel ho hw hg st hst]
    have lift : ∀ {r : R Store}, (∃ s', r = .ok s' ∧ s'.HasBacking p.bitfield.backing) →
        ∃ st', liftE (r.map Except.ok) = .ok (Except.ok (ε := String) st') := by
      rintro r ⟨s', rfl, -⟩
      exact ⟨s', rfl⟩
    have conv : ∀ e x, x.HasBacking p.bitfield.backing →
        ∃ x', fromConv p.bitfield e x = .ok x' ∧ x'.HasBacking p.bitfield.backing := by
      intro e x hx
      cases hb : p.bitfield.backing <;> rw [hb] at hx <;> cases x <;> simp only [Store.HasBacking] at hx <;> cases e <;>
        simp only [fromConv, hb]
      · exact ⟨_, rfl, hx⟩
      · exact ⟨_, rfl, hx⟩
      · exact ⟨_, rfl, hx⟩
      · rw [xorReverse_eq hx]
        exact ⟨_, rfl, by simpa [Store.HasBacking] using hx⟩
    have src : ∀ e x, x.HasBacking p.bitfield.backing → ∃ s', apiFromE rt p.bitfield e x = .ok s' ∧
        s'.HasBacking p.bitfield.backing := by
      intro e x hx
      obtain ⟨x', e1, h1⟩ := conv e x hx
      unfold apiFromE
      simp only [e1, R_bind_ok]
      exact sound_source S h1 (hasBacking_init _)
    have srcD : ∀ e x, x.HasBacking p.bitfield.backing → ∃ s', apiFromEDefaults rt p.bitfield e x = .ok s' ∧
        s'.HasBacking p.bitfield.backing := by
      intro e x hx
      obtain ⟨x', e1, h1⟩ := conv e x hx
      obtain ⟨s', e2, h2⟩ := sound_source S h1 (hasBacking_init _)
      unfold apiFromEDefaults
      simp only [e1, e2, R_bind_ok]
      exact sound_defaults S (fun _ h => h) h2
    rcases hog with rfl | rfl | ⟨e, d, x, rfl⟩
    · exact lift (sound_newBody S true (hasBacking_init _))
    · exact lift (sound_newBody S false (hasBacking_init _))
    · cases e <;> cases d
      · exact lift (src _ x ho)
      · exact lift (srcD _ x ho)
      · exact lift (src _ x ho)
      · exact lift (srcD _ x ho)

/-! ## Declarations that meet the hypotheses -/

/-- `get_a` returns bits 0 to 11 as two bytes, `set_a([x, y])` stores only `x` and clears bits 8 to 11. -/
example (rt : Mode) (st : Store) (x y : BitVec 8) : ∀ p,
    parseBitfield .checked (fun _ => false) ExA.A.attr ExA.A.decl = .ok p → st.HasBacking p.bitfield.backing →
    (∃ g ∈ p.bitfield.fields, g.name = "a" ∧ (program p).call p.bitfield rt (2 ^ 64) (.get g) st =
      .ok (.val (.arr (bytesOf 2 fun i => decide (i % 128 < 12) && st.bit (0 + i % 128))), st)) ∧
    ∃ g ∈ p.bitfield.fields, g.name = "a" ∧ ∃ st',
      (program p).call p.bitfield rt (2 ^ 64) (.set g (.arr [x, y])) st = .ok (.unit, st') ∧
      (∀ i < 8, st'.bit i = x.getLsbD i) ∧ (∀ i, 8 ≤ i → i < 12 → st'.bit i = false) ∧
      ∀ i, 12 ≤ i → i < 32 → st'.bit i = st.bit i := by
  intro p hp hst
  have hat : ExA.A.At (orderValue (fun _ => false) []) ExA.A.fields[0] 0 := ⟨rfl, [], _, 32, rfl, rfl, rfl⟩
  refine ⟨?_, ?_⟩
  · obtain ⟨g, h1, h2, h3⟩ := C66_array_get (rt := rt) ExA.readable rfl ExA.legal ExA.compiles hp (Nat.le_refl _) hat rfl rfl
      ⟨⟨by decide, rfl⟩, .inr rfl⟩
    exact ⟨g, h1, h2, (h3 st hst).1 (.inl (by decide))⟩
  · obtain ⟨g, h1, h2, h3⟩ := C66_array_set (rt := rt) ExA.readable rfl ExA.legal ExA.compiles hp (Nat.le_refl _) hat rfl rfl
      ⟨⟨by decide, rfl⟩, .inr rfl⟩
    obtain ⟨st', h4, -, h5⟩ := h3 st [x, y] hst rfl
    have hb : p.bitfield.backing.size = 32 := by cases hp; rfl
    have hw : (ExA.A.fields[0]).width = 12 := rfl
    rw [hb, hw] at h5
    refine ⟨g, h1, h2, st', h4, fun i hi => ?_, fun i h8 hi => ?_, fun i h12 hi => ?_⟩
    · rw [h5 i (by omega), if_pos (by omega)]
      show (decide (i - 0 < 8 * (12 / 8)) && ([x, y].getD ((i - 0) / 8) 0#8).getLsbD ((i - 0) % 8)) = _
      rw [Nat.sub_zero, Nat.div_eq_of_lt hi, Nat.mod_eq_of_lt hi]
      simp [hi]
    · rw [h5 i (by omega), if_pos (by omega)]
      have : decide (i - 0 < 8 * (12 / 8)) = false := decide_eq_false (by omega)
      rw [this]
      rfl
    · rw [h5 i (by omega), if_neg (by omega)]

/-- The struct of C65 can be made: none of its fields breaks. -/
example (rt : Mode) (st : Store) : ∀ p, parseBitfield .checked (fun _ => false) ExA.A.attr ExA.A.decl = .ok p →
    st.HasBacking p.bitfield.backing → ∃ st', (program p).make p.bitfield rt (2 ^ 64) .new st = .ok (.ok st') := by
  intro p hp hst
  refine (C66_made ExA.readable rfl ExA.legal ExA.compiles hp (Nat.le_refl _) ?_ (.inl rfl) trivial
    (by cases hp; exact ⟨.pub, by decide⟩) hst).mpr ?_
  · intro f hf name c h
    simp only [ExA.A, List.mem_cons, List.not_mem_nil, or_false] at hf
    rcases hf with rfl | rfl | rfl <;> cases h
  · intro f o hf hB
    have hm := At.mem hf
    simp only [ExA.A, List.mem_cons, List.not_mem_nil, or_false] at hm
    rcases hm with rfl | rfl | rfl
    · exact absurd hB.1 (by decide)
    · exact hB
    · exact hB

/-!
```
#[bitfield([u8; 32])]
pub struct W {
    #[bits(24)] a: [u8; 2],
    #[bits(200)] k: Kind,
    b: u32,
}

#[bitfield(u32)]
pub struct L {
    #[bits(16)] a: [u8; 17],
    b: u16,
}
```
-/

namespace ExO

def W : StructSpec where
  storage := .bytes 32
  rest := bitfieldTokens []
  vis := .pub
  fields := [
    ⟨"a", .priv, .bytes 2, some ⟨some 24, []⟩⟩,
    ⟨"k", .priv, .custom "Kind" ExS.kind, some ⟨some 200, []⟩⟩,
    ⟨"b", .priv, .int .u32, none⟩]

def L : StructSpec where
  storage := .int .u32
  rest := bitfieldTokens []
  vis := .pub
  fields := [
    ⟨"a", .priv, .bytes 17, some ⟨some 16, []⟩⟩,
    ⟨"b", .priv, .int .u16, none⟩]

namespace W

theorem readable : W.Readable where
  storage := trivial
  ty := by
    intro f hf
    simp only [W, List.mem_cons, List.not_mem_nil, or_false] at hf
    rcases hf with rfl | rfl | rfl <;> first | trivial | (show _ < _; decide) | (show _ ∉ _; decide)
  default := by
    intro f hf d v hd
    simp only [W, List.mem_cons, List.not_mem_nil, or_false] at hf
    rcases hf with rfl | rfl | rfl <;> simp [FieldSpec.args] at hd

theorem legal : W.Legal :=
  ((C03_acceptance_partial (m := .checked) (cfg := fun _ => false) readable (.inl rfl)).mp ⟨_, rfl⟩).1

theorem compiles : W.Compiles where
  storage := by intro h; cases h
  bytes := by
    intro f hf _ len h u hu
    cases hu
  default := by
    intro f hf _ d v h
    simp only [W, List.mem_cons, List.not_mem_nil, or_false] at hf
    rcases hf with rfl | rfl | rfl <;> cases h

theorem conversions {p : Parsed} (h : parseBitfield m (fun _ => false) W.attr W.decl = .ok p) :
    UserConversions p.bitfield := by
  intro g hg cd hty n
  obtain ⟨f, o, hf, rfl⟩ := ((StructSpec.compiled readable rfl legal compiles h).fields g).mp hg
  have hm := At.mem hf
  simp only [W, List.mem_cons, List.not_mem_nil, or_false] at hm
  rcases hm with rfl | rfl | rfl <;> cases hty
  nofun

end W

namespace L

theorem readable : L.Readable where
  storage := trivial
  ty := by
    intro f hf
    simp only [L, List.mem_cons, List.not_mem_nil, or_false] at hf
    rcases hf with rfl | rfl <;> first | trivial | (show _ < _; decide) | (show _ ∉ _; decide)
  default := by
    intro f hf d v hd
    simp only [L, List.mem_cons, List.not_mem_nil, or_false] at hf
    rcases hf with rfl | rfl <;> simp [FieldSpec.args] at hd

theorem legal : L.Legal :=
  ((C03_acceptance_partial (m := .checked) (cfg := fun _ => false) readable (.inl rfl)).mp ⟨_, rfl⟩).1

theorem compiles : L.Compiles where
  storage := by intro h; cases h
  bytes := by
    intro f hf _ len h
    simp only [L, List.mem_cons, List.not_mem_nil, or_false] at hf
    rcases hf with rfl | rfl <;> cases h
    intro _ _; decide
  default := by
    intro f hf _ d v h
    simp only [L, List.mem_cons, List.not_mem_nil, or_false] at hf
    rcases hf with rfl | rfl <;> cases h

theorem conversions {p : Parsed} (h : parseBitfield m (fun _ => false) L.attr L.decl = .ok p) :
    UserConversions p.bitfield := by
  intro g hg cd hty n
  obtain ⟨f, o, hf, rfl⟩ := ((StructSpec.compiled readable rfl legal compiles h).fields g).mp hg
  have hm := At.mem hf
  simp only [L, List.mem_cons, List.not_mem_nil, or_false] at hm
  rcases hm with rfl | rfl <;> cases hty

end L

end ExO

/-- `get_a` panics with an index error, `get_k` with a shift error, and without overflow checks returns bits 24 to 151
with bits 152 to 223 over the first 72 of them. -/
example (rt : Mode) (st : Store) : ∀ p, parseBitfield .checked (fun _ => false) ExO.W.attr ExO.W.decl = .ok p →
    st.HasBacking p.bitfield.backing →
    (∃ g ∈ p.bitfield.fields, g.name = "a" ∧
      (program p).call p.bitfield rt (2 ^ 64) (.get g) st = .error (.panic .index)) ∧
    (∃ g ∈ p.bitfield.fields, g.name = "k" ∧
      (program p).call p.bitfield .checked (2 ^ 64) (.get g) st = .error (.panic .shift)) ∧
    (∃ g ∈ p.bitfield.fields, g.name = "k" ∧
      (program p).call p.bitfield .wrapping (2 ^ 64) (.get g) st =
        .ok (.val (.custom (natOf 128 (folded 200 fun i => st.bit (24 + i)))), st)) := by
  intro p hp hst
  have a : ExO.W.At (orderValue (fun _ => false) []) ExO.W.fields[0] 0 := ⟨rfl, [], _, 256, rfl, rfl, rfl⟩
  have k : ExO.W.At (orderValue (fun _ => false) []) ExO.W.fields[1] 24 :=
    ⟨rfl, [ExO.W.fields[0]], _, 256, rfl, rfl, rfl⟩
  obtain ⟨g1, h1, h1', h1''⟩ := C66_array_wide (rt := rt) ExO.W.readable rfl ExO.W.legal ExO.W.compiles hp (Nat.le_refl _)
    a rfl rfl (by decide)
  obtain ⟨g2, h2, h2', h2''⟩ := C66_custom_checked ExO.W.readable rfl ExO.W.legal ExO.W.compiles hp (Nat.le_refl _)
    k rfl rfl (by decide)
  obtain ⟨g3, h3, h3', h3''⟩ := C66_custom_wrapping ExO.W.readable rfl ExO.W.legal ExO.W.compiles hp (Nat.le_refl _)
    k rfl rfl (by decide)
  exact ⟨⟨g1, h1, h1', (h1'' st hst).1 ⟨⟨by decide, rfl⟩, .inr rfl⟩⟩,
    ⟨g2, h2, h2', (h2'' st hst).1 ⟨⟨by decide, rfl⟩, .inr rfl⟩⟩,
    ⟨g3, h3, h3', (h3'' st hst).1 ⟨⟨by decide, rfl⟩, .inr rfl⟩⟩⟩

/-- With overflow checks, `L::new()` does not return. -/
example (st : Store) : ∀ p, parseBitfield .checked (fun _ => false) ExO.L.attr ExO.L.decl = .ok p →
    st.HasBacking p.bitfield.backing →
    (∃ q, (program p).make p.bitfield .checked (2 ^ 64) .new st = .error (.panic q)) ∨
      ∃ msg, (program p).make p.bitfield .checked (2 ^ 64) .new st = .ok (.error msg) := fun p hp hst =>
  C66_unmade (og := .new) (f := ExO.L.fields[0]) (o := 0) ExO.L.readable rfl ExO.L.legal ExO.L.compiles hp (ExO.L.conversions hp)
    (Nat.le_refl _) ⟨rfl, [], _, 32, rfl, rfl, rfl⟩ ⟨by decide, ⟨⟨by decide, rfl⟩, .inr rfl⟩, rfl⟩ trivial trivial
    (by cases hp; exact ⟨.pub, by decide⟩) (by intro h; cases h) hst

end Bf
