import Verif.Lemmas.TextInit

/-!
# Reading the signatures of functions
-/

namespace Bf.Text

open Rust Quote

variable {P : Printer} {C : Style}

theorem modifier_eq (P : Printer) : modifierTokens P = if P.constant then some [Tok.kw .const_] else none := by
  obtain ⟨⟨bk, flds, fe, ie, we, hp⟩, nm, vs, ats, ig, args, df, fv, cm⟩ := P
  cases bk <;> cases ig <;> cases cm <;> cases hp <;> rfl

/-- What is between `(` and the body of a function. -/
def Sg (sg : List Tok) (recv : Recv) (params : List (String × SType)) (ret : Option SType) : Prop :=
  ∃ K, ∀ n r vis const x, parseSignature (n + K) vis const x (sg ++ r) =
    some ({ vis, const, name := x, recv, params, ret, body := [] }, r)

theorem Mem.pub (v : Vis) (doc name : String) {sg body : List Tok} {recv : Recv} {params : List (String × SType)}
    {ret : Option SType} {ss : List SStmt} (hs : Sg sg recv params ret) (hb : Body body ss) :
    Mem (.p .hash :: .opn .bracket :: .ident "doc" :: .p .eq :: .str doc :: .cls .bracket :: .vis v ::
        (Splice.splice (modifierTokens P) ++ .kw .fn_ :: .ident name :: .opn .paren :: (sg ++ (body ++ [.cls .brace]))))
      [.fn ⟨some v, P.constant, name, recv, params, ret, ss⟩] := by
  obtain ⟨K, hs⟩ := hs
  have hh : ∀ n r, parseOpen (n + (K + 3)) ((.p .hash :: .opn .bracket :: .ident "doc" :: .p .eq :: .str doc ::
      .cls .bracket :: .vis v :: (Splice.splice (modifierTokens P) ++ .kw .fn_ :: .ident name :: .opn .paren :: sg)) ++ r) =
      some (.inl ⟨some v, P.constant, name, recv, params, ret, []⟩, r) := by
    intro n r
    have h := hs (n + 3) r (some v) P.constant name
    have e : n + 3 + K = n + (K + 3) := by omega
    rw [e] at h
    rw [modifier_eq]
    cases hc : P.constant <;> rw [hc] at h
    · show (parseSignature (n + (K + 3)) (some v) false name (sg ++ r)).bind (fun x => some (Sum.inl x.1, x.2)) = _
      rw [h]; rfl
    · show (parseSignature (n + (K + 3)) (some v) true name (sg ++ r)).bind (fun x => some (Sum.inl x.1, x.2)) = _
      rw [h]; rfl
  have := Mem.fn (K + 3) hh hb
  simpa only [List.cons_append, List.append_assoc] using this

theorem Mem.plain (name : String) {sg body : List Tok} {recv : Recv} {params : List (String × SType)}
    {ret : Option SType} {ss : List SStmt} (hs : Sg sg recv params ret) (hb : Body body ss) :
    Mem (.kw .fn_ :: .ident name :: .opn .paren :: (sg ++ (body ++ [.cls .brace])))
      [.fn ⟨none, false, name, recv, params, ret, ss⟩] := by
  obtain ⟨K, hs⟩ := hs
  have hh : ∀ n r, parseOpen (n + (K + 3)) ((.kw .fn_ :: .ident name :: .opn .paren :: sg) ++ r) =
      some (.inl ⟨none, false, name, recv, params, ret, []⟩, r) := by
    intro n r
    have h := hs (n + 3) r none false name
    have e : n + 3 + K = n + (K + 3) := by omega
    rw [e] at h
    show (parseSignature (n + (K + 3)) none false name (sg ++ r)).bind (fun x => some (Sum.inl x.1, x.2)) = _
    rw [h]; rfl
  have := Mem.fn (K + 3) hh hb
  simpa only [List.cons_append, List.append_assoc] using this

macro "sg" : tactic => `(tactic| exact ⟨20, fun _ _ _ _ _ => by krfl⟩)

/-! ## Types -/

theorem type_eq (t : DataType) :
    (∃ s, typeTokens t = [.ident s] ∧ dataSyn t = namesTy [s]) ∨
    (∃ n, typeTokens t = arrayTokens n ∧ dataSyn t = tySyn (.arr n)) ∨
    ∃ c, typeTokens t = [.custom c] ∧ dataSyn t = .path [.custom c] [] := by
  cases t with
  | int t =>
    refine .inl ⟨t.text, rfl, ?_⟩
    rw [text_intTy]
    cases t <;> rfl
  | array n => exact .inr (.inl ⟨n, rfl, rfl⟩)
  | custom c => exact .inr (.inr ⟨c, rfl, rfl⟩)

theorem back_eq (b : Backing) :
    (∃ s, backTokens b = [.ident s] ∧ tySyn (backTy b) = namesTy [s]) ∨
    ∃ n, backTokens b = arrayTokens n ∧ tySyn (backTy b) = tySyn (.arr n) := by
  cases b with
  | int w => exact .inl ⟨_, rfl, rfl⟩
  | arr n => exact .inr ⟨n, rfl, rfl⟩

theorem sig_field (H : Head) (t : DataType) (h : H.obj = dataSyn t) : sigSyn H (fieldTy t) = dataSyn t := by
  cases t with
  | int t => cases t <;> rfl
  | array n => rfl
  | custom c => exact h

theorem sig_back (H : Head) (b : Backing) : sigSyn H (backTy b) = tySyn (backTy b) := by cases b <;> rfl

/-- `Result<T, &'static str>` -/
def resultSyn (t : SType) : SType :=
  .path [.name "", .name "core", .name "result", .name "Result"] [t, .ref (namesTy ["str"])]

macro "sg_type " t:term : tactic => `(tactic| (
  rcases type_eq $t with ⟨s, e1, e2⟩ | ⟨n, e1, e2⟩ | ⟨c, e1, e2⟩ <;> rw [e1, e2] <;> sg))

macro "sg_back " t:term : tactic => `(tactic| (
  rcases back_eq $t with ⟨s, e1, e2⟩ | ⟨n, e1, e2⟩ <;> rw [e1, e2] <;> sg))

section
variable (t : DataType) (b : Backing)

theorem sg_new : Sg (quote! ") -> Self {") .none [] (some (namesTy ["Self"])) := by sg

theorem sg_getter : Sg (let ty := typeTokens t; quote! "&self) -> #ty {") .ref [] (some (dataSyn t)) := by
  sg_type t

theorem sg_setter : Sg (let ty := typeTokens t; quote! "&mut self, bits: #ty) {") .refMut [("bits", dataSyn t)] none := by
  sg_type t

theorem sg_checked : Sg (let ty := typeTokens t;
      quote! "&mut self, bits: #ty) -> ::core::result::Result<(), &'static str> {")
    .refMut [("bits", dataSyn t)] (some (resultSyn .unit)) := by
  sg_type t

theorem sg_with : Sg (let ty := typeTokens t; quote! "mut self, bits: #ty) -> Self {") .valueMut [("bits", dataSyn t)]
    (some (namesTy ["Self"])) := by
  sg_type t

theorem sg_checkedWith : Sg (let ty := typeTokens t;
      quote! "mut self, bits: #ty) -> ::core::result::Result<Self, &'static str> {")
    .valueMut [("bits", dataSyn t)] (some (resultSyn (namesTy ["Self"]))) := by
  sg_type t

theorem sg_op : Sg (quote! "&mut self) {") .refMut [] none := by sg

theorem sg_build (name : String) : Sg (let x := Tok.ident name; quote! "self) -> #x {") .value [] (some (namesTy [name])) := by
  sg

theorem sg_from (x : String) (hx : x = "bits" ∨ x = "bytes") :
    Sg (let x := [Tok.ident x]; let ty := backTokens b; quote! "#x: #ty) -> Self {") .none [(x, tySyn (backTy b))]
      (some (namesTy ["Self"])) := by
  rcases hx with rfl | rfl <;> sg_back b

theorem sg_write (x : String) :
    Sg (let x := [Tok.ident x]; let ty := backTokens b; quote! "&mut self, #x: #ty) {") .refMut [(x, tySyn (backTy b))]
      none := by
  sg_back b

theorem sg_into : Sg (let ty := backTokens b; quote! "self) -> #ty {") .value [] (some (tySyn (backTy b))) := by
  sg_back b

theorem sg_intoRef : Sg (let ty := backTokens b; quote! "&self) -> #ty {") .ref [] (some (tySyn (backTy b))) := by
  sg_back b

theorem sg_slice : Sg (quote! "slice: &[u8]) -> Self {") .none [("slice", tySyn .slice)] (some (namesTy ["Self"])) := by sg

theorem sg_checkedSlice : Sg (quote! "slice: &[u8]) -> ::core::result::Result<Self, &'static str> {") .none
    [("slice", tySyn .slice)] (some (resultSyn (namesTy ["Self"]))) := by sg

theorem sg_intoSlice : Sg (quote! "&self, slice: &mut [u8]) {") .ref [("slice", .ref (.slice (namesTy ["u8"])) true)] none := by sg

theorem sg_checkedInto : Sg (quote! "&self, slice: &mut [u8]) -> ::core::result::Result<(), &'static str> {") .ref
    [("slice", .ref (.slice (namesTy ["u8"])) true)] (some (resultSyn .unit)) := by sg

theorem sg_setBit : Sg (quote! "&mut self, offset: u32, bit: bool) {") .refMut
    [("offset", namesTy ["u32"]), ("bit", namesTy ["bool"])] none := by sg

theorem sg_checkedSetBit :
    Sg (quote! "&mut self, offset: u32, bit: bool) -> ::core::result::Result<(), &'static str> {") .refMut
      [("offset", namesTy ["u32"]), ("bit", namesTy ["bool"])] (some (resultSyn .unit)) := by sg

theorem sg_setRange : Sg (let ty := backTokens b; quote! "&mut self, offset: u32, length: u32, value: #ty) {") .refMut
    [("offset", namesTy ["u32"]), ("length", namesTy ["u32"]), ("value", tySyn (backTy b))] none := by sg_back b

theorem sg_checkedSetRange : Sg (let ty := backTokens b;
      quote! "&mut self, offset: u32, length: u32, value: #ty) -> ::core::result::Result<(), &'static str> {") .refMut
    [("offset", namesTy ["u32"]), ("length", namesTy ["u32"]), ("value", tySyn (backTy b))] (some (resultSyn .unit)) := by
  sg_back b

theorem sg_getBit : Sg (quote! "&self, offset: u32) -> bool {") .ref [("offset", namesTy ["u32"])]
    (some (namesTy ["bool"])) := by sg

theorem sg_checkedGetBit : Sg (quote! "&self, offset: u32) -> ::core::result::Result<bool, &'static str> {") .ref
    [("offset", namesTy ["u32"])] (some (resultSyn (namesTy ["bool"]))) := by sg

theorem sg_getRange : Sg (let ty := backTokens b; quote! "&self, offset: u32, length: u32) -> #ty {") .ref
    [("offset", namesTy ["u32"]), ("length", namesTy ["u32"])] (some (tySyn (backTy b))) := by sg_back b

theorem sg_checkedGetRange : Sg (let ty := backTokens b;
      quote! "&self, offset: u32, length: u32) -> ::core::result::Result<#ty, &'static str> {") .ref
    [("offset", namesTy ["u32"]), ("length", namesTy ["u32"])] (some (resultSyn (tySyn (backTy b)))) := by sg_back b

theorem sg_val (name : String) : Sg (let x := Tok.ident name; quote! "val: #x) -> Self {") .none
    [("val", namesTy [name])] (some (namesTy ["Self"])) := by sg

theorem sg_default (name : String) : Sg (let x := Tok.ident name; quote! ") -> #x {") .none [] (some (namesTy [name])) := by
  sg

theorem sg_fmt : Sg (quote! "&self, f: &mut core::fmt::Formatter<'_>) -> core::fmt::Result {") .ref
    [("f", .ref (namesTy ["core", "fmt", "Formatter"]) true)] (some (namesTy ["core", "fmt", "Result"])) := by sg

end

end Bf.Text
