import Verif.Lemmas.TextItems

/-!
# Reading the implementations of traits and the builder
-/

namespace Bf.Text

open Rust Quote

set_option maxRecDepth 2000
set_option linter.unusedVariables false

variable {P : Printer} {C : Style}

/-! ## `From` -/

theorem seq_traitConv (h : Fits P C) : Seq (let c := traitConvTokens P false; quote! "let bits = #c;")
    (stmtSyn C (.letS "bits" none (traitConvTok P.B (.var (paramTok P.B)) P.B.fromEndian))) := by
  open_style h
  clear huser
  unfold traitConvTokens traitConvTok
  cases bk <;> cases fe <;> seq 1 60

theorem body_traitConv (h : Fits P C) : Body (let c := traitConvTokens P true; quote! "let mut this = val; #c")
    (stmtSyn C (traitIntoFn P.B).body ++ tailSyn C false (traitIntoFn P.B).tail) := by
  open_style h
  clear huser
  unfold traitConvTokens traitIntoFn traitConvTok innerArrTok
  cases bk <;> cases ie <;> cases hp <;> cases ig <;> exact Body.mk 60 (fun _ _ => by krfl) (fun _ => trivial)

theorem sg_traitFrom (P : Printer) : Sg (let x := paramTokens P; let ty := backTokens P.B.backing
      quote! "#x: #ty) -> Self {") .none [(paramTok P.B, tySyn (backTy P.B.backing))] (some (namesTy ["Self"])) := by
  rw [param_eq]
  exact sg_from P.B.backing (paramTok P.B) (param_or P)

theorem itm_traits (h : Fits P C) : Itm (traitsTokens P) (P.items C .fromTraits) := by
  have h1 := Mem.plain "from" (sg_traitFrom P)
    ((seq_mutThis h).body ((seq_traitConv h).body ((seq_setAll h .none).body (body_this C))))
  have h2 := Mem.plain "from" (sg_val P.name) (body_traitConv h)
  have t1 : ∀ n r, parseTop (n + 30) ((let t := backTokens P.B.backing; let x := Tok.ident P.name
      quote! "impl core::convert::From<#t> for #x {") ++ r) =
      some (.inl (some (.path [.name "core", .name "convert", .name "From"] [tySyn (backTy P.B.backing)]), namesTy [P.name]), r) := by
    intro n r
    rcases back_eq P.B.backing with ⟨s, e1, e2⟩ | ⟨n, e1, e2⟩ <;> rw [e1, e2] <;> rfl
  have t2 : ∀ n r, parseTop (n + 30) ((let t := backTokens P.B.backing; let x := Tok.ident P.name
      quote! "impl core::convert::From<#x> for #t {") ++ r) =
      some (.inl (some (.path [.name "core", .name "convert", .name "From"] [namesTy [P.name]]), tySyn (backTy P.B.backing)), r) := by
    intro n r
    rcases back_eq P.B.backing with ⟨s, e1, e2⟩ | ⟨n, e1, e2⟩ <;> rw [e1, e2] <;> rfl
  refine ((Itm.impl 30 t1 h1).append (Itm.impl 30 t2 h2)).cast ?_ ?_
  · toks [traitsTokens, traitFromTokens, traitIntoTokens]
  · simp only [Printer.items]
    fn [traitFromFn, sig_back]
    rfl

/-! ## `Debug` -/

theorem seq_debugFields (h : Fits P C) : Seq (debugFieldTokens P) (stmtSyn C (.all (P.B.fields.map fun f =>
    .seq (extractTok P.B f .bitfield false false false) (.debugField f.name (.var "value"))))) := by
  refine Seq.joined _ _ _ C fun f _ => ?_
  have h1 : Seq (let x := Tok.str f.name; quote! "debug.field(#x, &value);")
      (stmtSyn C (.debugField f.name (.var "value"))) := by seq 1 30
  exact ((seq_extract_bitfield h f false).append h1).cast (by toks [splice_list]) rfl

theorem itm_debug (h : Fits P C) : Itm (debugTokens P) (P.items C .debug) := by
  have s1 : Seq (let x := Tok.str P.name; quote! "let mut debug = f.debug_struct(#x);")
      [.letS "debug" none (.method (names ["f"]) "debug_struct" [.str P.name]) true] := by seq 1 30
  have b1 : Body (quote! "debug.finish()") [.expr (.method (names ["debug"]) "finish" []) false] :=
    Body.mk 20 (fun _ _ => by krfl) (fun _ => trivial)
  have h1 := Mem.plain "fmt" sg_fmt ((seq_letThis C).body (s1.body ((seq_debugFields h).body b1)))
  have t1 : ∀ n r, parseTop (n + 30) ((let x := Tok.ident P.name; quote! "impl core::fmt::Debug for #x {") ++ r) =
      some (.inl (some (namesTy ["core", "fmt", "Debug"]), namesTy [P.name]), r) := fun _ _ => rfl
  refine (Itm.impl 30 t1 h1).cast ?_ ?_
  · toks [debugTokens]
  · simp only [Printer.items, Printer.fmtSyn, debugFn, List.append_assoc]

/-! ## `Default` -/

theorem body_default (h : Fits P C) :
    Body (defaultBodyTokens P) (stmtSyn C (defaultFn P.G).body ++ tailSyn C false (defaultFn P.G).tail) := by
  unfold defaultBodyTokens
  cases hn : P.args.new with
  | true =>
    have e : stmtSyn C (defaultFn P.G).body ++ tailSyn C false (defaultFn P.G).tail =
        [.expr (.call (names ["Self", "new"]) []) false] := by
      simp only [defaultFn, Printer.G, hn, if_true]
      rfl
    rw [e]
    exact Body.mk 20 (fun _ _ => by krfl) (fun _ => trivial)
  | false =>
    have h1 := (seq_mutThis h).body ((seq_defaults h).body (body_this C))
    refine h1.cast ?_ ?_
    · toks [if_false, Bool.false_eq_true]
    · simp only [defaultFn, Printer.G, hn, if_false, Bool.false_eq_true, stmtSyn_all_cons, stmtSyn_all_nil]

theorem itm_default (h : Fits P C) : Itm (defaultTokens P) (P.items C .default) := by
  have h1 := Mem.plain "default" (sg_default P.name) (body_default h)
  have t1 : ∀ n r, parseTop (n + 30) ((let x := Tok.ident P.name; quote! "impl core::default::Default for #x {") ++ r) =
      some (.inl (some (namesTy ["core", "default", "Default"]), namesTy [P.name]), r) := fun _ _ => rfl
  refine (Itm.impl 30 t1 h1).cast ?_ ?_
  · toks [defaultTokens]
  · rfl

/-! ## The builder -/

theorem body_builderNew (h : Fits P C) (d : Bool) : Body (builderNewTokens P d)
    (stmtSyn C (builderNewFn P.G d).body ++ tailSyn C true (builderNewFn P.G d).tail) := by
  unfold builderNewTokens
  cases hn : P.args.new with
  | true =>
    have e : stmtSyn C (builderNewFn P.G d).body ++ tailSyn C true (builderNewFn P.G d).tail =
        [.expr (.struct [.name "Self"] [("this", .call (names [P.name, if d then "new" else "new_without_defaults"]) [])])
          false] := by
      simp only [builderNewFn, Printer.G, hn, if_true, ← h.name]
      cases d <;> rfl
    rw [e]
    cases d <;> exact Body.mk 40 (fun _ _ => by krfl) (fun _ => trivial)
  | false =>
    have b1 : Body (quote! "Self { this, }") [.expr (.struct [.name "Self"] [("this", names ["this"])]) false] :=
      Body.mk 20 (fun _ _ => by krfl) (fun _ => trivial)
    refine ((seq_new h d true false).body b1).cast ?_ ?_
    · toks [if_false, Bool.false_eq_true]
    · simp only [builderNewFn, Printer.G, hn, if_false, Bool.false_eq_true, stmtSyn_all_cons, stmtSyn_all_nil]
      rfl

theorem body_self (C : Style) : Body (quote! "self") (tailSyn C true (.whole true)) :=
  Body.mk 20 (fun _ _ => by krfl) (fun _ => trivial)

theorem body_okSelf (C : Style) : Body (quote! "Ok(self)") (tailSyn C true (.okE (.whole true))) :=
  Body.mk 20 (fun _ _ => by krfl) (fun _ => trivial)

theorem mem_builderSetter (h : Fits P C) (f : Field) : Mem (builderSettersTokens1 P f)
    [.fn (fnSyn C (P.fieldHead f .valueMut) (.acc .builderWith f.name) (withFn P.B f)),
     .fn (fnSyn C (P.fieldHead f .valueMut) (.acc .builderCheckedWith f.name) (checkedWithFn P.B f))] := by
  have h1 := Mem.pub (P := P) (P.fieldVis f.offset) (Accessor.doc P.args.order f .builderWith)
    (Accessor.builderWith.ident f.name) (sg_with f.ty) ((seq_setFromVar h f true false true true (by simp)).body (body_self C))
  have h2 := Mem.pub (P := P) (P.fieldVis f.offset) (Accessor.doc P.args.order f .builderCheckedWith)
    (Accessor.builderCheckedWith.ident f.name) (sg_checkedWith f.ty)
    ((seq_setFromVar h f true true true true (by simp)).body (body_okSelf C))
  refine (h1.append h2).cast ?_ ?_
  · toks [builderSettersTokens1, nameTok]
  · fn [withFn, checkedWithFn, sig_field (P.fieldHead f .valueMut) f.ty rfl]
    rfl

theorem itm_builder (h : Fits P C) : Itm (builderTokens P) (P.items C .builder) := by
  have m0 : Mem (quote! "fn default() -> Self { Self::new() }")
      [.fn (fnSyn C (traitHead .none "Self") (.impl .builderDefault) builderDefaultFn)] := by
    have b : Body (quote! "Self::new()") [.expr (.call (names ["Self", "new"]) []) false] :=
      Body.mk 20 (fun _ _ => by krfl) (fun _ => trivial)
    exact (Mem.plain "default" sg_new b).cast rfl rfl
  have m1 := fun doc name d => Mem.pub (P := P) P.vis doc name sg_new (body_builderNew h d)
  have b2 : Body (quote! "self.this") [.expr (.field (names ["self"]) "this") false] :=
    Body.mk 20 (fun _ _ => by krfl) (fun _ => trivial)
  have m2 := Mem.pub (P := P) P.vis "Builds a bitfield instance from the builder." "build" (sg_build P.name) b2
  have m3 : Mem (builderSettersTokens P) ((P.B.fields.filter fun f : Field => !f.reserved).flatMap fun f =>
      [.fn (fnSyn C (P.fieldHead f .valueMut) (.acc .builderWith f.name) (withFn P.B f)),
       .fn (fnSyn C (P.fieldHead f .valueMut) (.acc .builderCheckedWith f.name) (checkedWithFn P.B f))]) :=
    Mem.joined _ _ _ fun f _ => mem_builderSetter h f
  have t0 : ∀ n r, parseTop (n + 30) ((let x := Tok.ident (P.name ++ "Builder"); let v := Tok.vis P.vis; let y := Tok.ident P.name
      quote! "#[doc = \"A builder for the bitfield.\"] #v struct #x { this: #y, }") ++ r) =
      some (.inr (.struct [[.ident "doc", .p .eq, .str "A builder for the bitfield."]] (some P.vis) (P.name ++ "Builder")
       [(none, "this", namesTy [P.name])]), r) := fun _ _ => rfl
  have t1 : ∀ n r, parseTop (n + 30) ((let x := Tok.ident (P.name ++ "Builder"); quote! "impl Default for #x {") ++ r) =
      some (.inl (some (namesTy ["Default"]), namesTy [P.name ++ "Builder"]), r) := fun _ _ => rfl
  have t2 : ∀ n r, parseTop (n + 30) ((let x := Tok.ident (P.name ++ "Builder"); quote! "impl #x {") ++ r) =
      some (.inl (none, namesTy [P.name ++ "Builder"]), r) := fun _ _ => rfl
  refine ((Itm.top 30 t0).append ((Itm.impl 30 t1 m0).append (Itm.impl 30 t2
    ((m1 "Creates a new bitfield builder instance." "new" true).append
      ((m1 "Creates a new bitfield builder instance without respecting defaults." "new_without_defaults" false).append
        (m3.append m2)))))).cast ?_ ?_
  · toks [builderTokens]
  · simp only [Printer.items, Printer.builderFns, List.map_append, List.map_cons, List.map_nil, List.map_flatMap,
      List.cons_append, List.nil_append, List.append_assoc]
    rfl

/-! ## The whole expansion -/

/-- Every feature inside the `impl` reads as its members. -/
theorem mem_feature (h : Fits P C) (F : Feature) (hF : F.position = .inside) :
    Mem (featureTokens P F) (P.members C F) := by
  cases F with
  | constants => exact mem_constants
  | new => exact mem_newFns h
  | setters => exact mem_setters h
  | getters => exact mem_getters h
  | fromIntoBits => exact mem_fromInto h
  | writeBitOps => exact mem_write h
  | setGetBitOps => exact mem_setGet h
  | clearBitOps => exact mem_clear h
  | invertBitOps => exact mem_invert h
  | struct | fromTraits | debug | builder | default => cases hF

/-- Every other feature reads as its items. -/
theorem itm_feature (h : Fits P C) (F : Feature) (hF : F.position ≠ .inside) :
    Itm (featureTokens P F) (P.items C F) := by
  cases F with
  | struct => exact itm_struct P C
  | fromTraits => exact itm_traits h
  | debug => exact itm_debug h
  | builder => exact itm_builder h
  | default => exact itm_default h
  | constants | new | setters | getters | fromIntoBits | writeBitOps | setGetBitOps | clearBitOps | invertBitOps =>
    exact absurd rfl hF

theorem itm_expansion (h : Fits P C) : Itm (expansionTokens P) (P.expansion C) := by
  have hs : ∀ pos, pos ≠ .inside → Itm (joined (sectionTokens P pos)) ((P.section pos).flatMap (P.items C)) := by
    intro pos hp
    refine Itm.joined (P.section pos) _ _ fun F hF => itm_feature h F ?_
    have := (List.mem_filter.mp hF).2
    rw [of_decide_eq_true this]
    exact hp
  have hm : Mem (joined (sectionTokens P .inside)) ((P.section .inside).flatMap (P.members C)) :=
    Mem.joined (P.section .inside) _ _ fun F hF => mem_feature h F (of_decide_eq_true (List.mem_filter.mp hF).2)
  have t1 : ∀ n r, parseTop (n + 30) ((let x := Tok.ident P.name; quote! "#[allow(clippy::manual_swap)] impl #x {") ++ r) =
      some (.inl (none, namesTy [P.name]), r) := fun _ _ => rfl
  refine ((hs .above (by decide)).append ((Itm.impl 30 t1 hm).append (hs .below (by decide)))).cast ?_ ?_
  · toks [expansionTokens]
  · simp only [Printer.expansion, List.append_assoc]

end Bf.Text
