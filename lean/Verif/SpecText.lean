import Verif.Model.Emit
import Verif.Model.Syntax

/-!
# What the constructs of `Model/Rust.lean` look like in Rust

The programs the other specifications talk about are syntax trees of `Model/Rust.lean`. Here each construct is given
its Rust syntax, as a tree of the parser in `Model/Syntax.lean`, and the items of an expansion are listed: the struct,
the constants and the functions of `featureFns`.
-/

namespace Bf.Text

open Rust Quote

/-- What the syntax depends on. -/
structure Style where
  /-- the name of the bitfield -/
  name : String
  /-- the members for ignored fields and how they are made; with one of them the bits are in `this.val`, otherwise in
  `this.0` -/
  ignored : List (String × SExpr)
  /-- the default expression of the field at an offset -/
  user : Nat → SExpr

/-- A path of names. -/
def names (xs : List String) : SExpr := .path (xs.map .name)

/-- A type that is a path of names. -/
def namesTy (xs : List String) : SType := .path (xs.map .name) []

/-- The name of a primitive type. -/
def tyName : Ty → String
  | .u w => "u" ++ toString w
  | .i w => "i" ++ toString w
  | .usize => "usize"
  | .bool => "bool"
  | _ => ""

/-- A type. -/
def tySyn : Ty → SType
  | .arr n => .arr (namesTy ["u8"]) n ""
  | .slice => .ref (.slice (namesTy ["u8"]))
  | .unit => .unit
  | t => namesTy [tyName t]

/-- A binary operator. -/
def opSyn : BinOp → SOp
  | .and => .and
  | .or => .or
  | .xor => .xor
  | .add => .add
  | .sub => .sub
  | .mul => .mul
  | .div => .div
  | .rem => .rem
  | .shl => .shl
  | .shr => .shr
  | .eq => .eq
  | .ne => .ne
  | .lt => .lt
  | .gt => .gt
  | .ge => .ge

/-- The name of a function. -/
def tagName : Tag → String
  | .acc a f => a.ident f
  | .fn x => x
  | .builderFn x => x
  | .impl .default | .impl .builderDefault => "default"
  | .impl .fromBacking | .impl .intoBacking => "from"
  | .impl .debug => "fmt"
  | _ => ""

/-- `this` or `self.this` -/
def thisSyn (self : Bool) : SExpr :=
  if self then .field (names ["self"]) "this" else names ["this"]

/-- The stored value. -/
def innerSyn (C : Style) (self : Bool) : SExpr :=
  match C.ignored with
  | [] => .tupleField (thisSyn self) 0
  | _ :: _ => .field (thisSyn self) "val"

/-- `Self` or the name of the bitfield. -/
def selfName (C : Style) (byName : Bool) : String := if byName then C.name else "Self"

/-- Whether the type of a local variable is written in the code. Those of `field_bits` and of the `i` that is an
`usize` are left to inference. -/
def annotated (x : String) : Ty → Bool
  | .usize => !decide (x = "i")
  | _ => !decide (x = "field_bits")

mutual

/-- An expression. -/
def exprSyn (C : Style) : Expr → SExpr
  | .var x => names [x]
  | .inner self => innerSyn C self
  | .whole self => names [if self then "self" else "this"]
  | .lit n none => .int n ""
  | .lit n (some t) => .int n (tyName t)
  | .bool b => names [if b then "true" else "false"]
  | .user k _ _ => C.user k
  | .const byName a f => names [selfName C byName, a.ident f]
  | .maxOf w => names [tyName (.u w), "MAX"]
  | .bitsOf w => names [tyName (.u w), "BITS"]
  | .not e => .pre .not (exprSyn C e)
  | .neg e => .pre .neg (exprSyn C e)
  | .bin op a b => .bin (opSyn op) (exprSyn C a) (exprSyn C b)
  | .orElse a b => .bin .orElse (exprSyn C a) (exprSyn C b)
  | .andAlso a b => .bin .andAlso (exprSyn C a) (exprSyn C b)
  | .cast e t => .cast (exprSyn C e) (tySyn t)
  | .castInfer e => .cast (exprSyn C e) (namesTy ["_"])
  | .index a i => .index (exprSyn C a) (exprSyn C i)
  | .deref e => .pre .deref (exprSyn C e)
  | .boxNew e => .call (names ["", "std", "boxed", "Box", "new"]) [exprSyn C e]
  | .zeros n => .repeated (.int 0 "u8") (.int n "usize")
  | .bytes bs => .array (bs.map fun b => .int b.toNat "u8")
  | .ite c a b => .ite (exprSyn C c) [.expr (exprSyn C a) false] (some [.expr (exprSyn C b) false])
  | .block s e => .block (stmtSyn C s ++ [.expr (exprSyn C e) false])
  | .fromBits c (.lit n t) => .call (.path [.custom c, .name "from_bits"]) [exprSyn C (.lit n t)]
  | .fromBits c e => .call (.path [.custom c, .name "from_bits"]) [.cast (exprSyn C e) (namesTy ["_"])]
  | .intoBits e => .method (exprSyn C e) "into_bits" []
  | .swapBytes e => .method (exprSyn C e) "swap_bytes" []
  | .len e => .method (exprSyn C e) "len" []
  | .contains lo hi e =>
    .method (.bin .range (.int lo "u32") (.int hi "u32")) "contains" [.pre .ref (exprSyn C e)]
  | .method self f e => .method (thisSyn self) (tagName f) [exprSyn C e]
  | .assoc byName f => .call (names [selfName C byName, tagName f]) []
  | .unit => .unit
  | .okE e => .call (names ["Ok"]) [exprSyn C e]
  | .errE msg => .call (names ["Err"]) [.str msg]

/-- A statement. Where the type is written anyway the elements of an array of zeros have no suffix. -/
def stmtSyn (C : Style) : Stmt → List SStmt
  | .skip => []
  | .seq a b => stmtSyn C a ++ stmtSyn C b
  | .letS x (some (.arr n)) (.zeros k) mu =>
    [.letS x (some (tySyn (.arr n))) (.repeated (.int 0 "") (.int k "usize")) mu]
  | .letS x (some t) e mu => [.letS x (if annotated x t then some (tySyn t) else none) (exprSyn C e) mu]
  | .letS x none e mu => [.letS x none (exprSyn C e) mu]
  | .letThis => [.letS "this" none (names ["self"])]
  | .initThis byName e mu =>
    [.letS "this" none
      (match C.ignored with
       | [] => .call (names [selfName C byName]) [exprSyn C e]
       | i :: is => .struct [.name (selfName C byName)] (("val", exprSyn C e) :: i :: is)) mu]
  | .moveThis x => [.letS "this" none (names [x]) true]
  | .assign x op e => [.assign (op.map opSyn) (names [x]) (exprSyn C e)]
  | .assignInner self op e => [.assign (op.map opSyn) (innerSyn C self) (exprSyn C e)]
  | .assignElem x i op e => [.assign (op.map opSyn) (.index (names [x]) (exprSyn C i)) (exprSyn C e)]
  | .assignInnerElem self i op e =>
    [.assign (op.map opSyn) (.index (innerSyn C self) (exprSyn C i)) (exprSyn C e)]
  | .expr e => [.expr (exprSyn C e) true]
  | .ite c a .skip => [.expr (.ite (exprSyn C c) (stmtSyn C a) none) false]
  | .ite c a b => [.expr (.ite (exprSyn C c) (stmtSyn C a) (some (stmtSyn C b))) false]
  | .loop c s => [.loop (exprSyn C c) (stmtSyn C s)]
  | .ret .unit => [.expr (.ret none) true]
  | .ret (.zeros n) => [.expr (.ret (some (.repeated (.int 0 "") (.int n "usize")))) true]
  | .ret e => [.expr (.ret (some (exprSyn C e))) true]
  | .scope s => [.expr (.block (stmtSyn C s)) false]
  | .tryS e =>
    [.expr (.matching (exprSyn C e)
      [(.call (names ["Ok"]) [.unit], .block []),
       (.call (names ["Err"]) [names ["e"]], .ret (some (.call (names ["Err"]) [names ["e"]])))]) false]
  | .debugField x e => [.expr (.method (names ["debug"]) "field" [.str x, .pre .ref (exprSyn C e)]) true]

end

/-! ## Functions -/

/-- The type of a field. -/
def dataSyn : DataType → SType
  | .custom c => .path [.custom c] []
  | t => tySyn (fieldTy t)

/-- What the trees of `Model/Rust.lean` do not say about a function. -/
structure Head where
  vis : Option Vis
  const : Bool
  recv : Recv
  /-- the user's type among the types of the parameters and the result -/
  obj : SType
  /-- how the type the function belongs to is written -/
  self : SType
  /-- a slice among the parameters is `&mut [u8]` -/
  slice : Bool

/-- The type of a parameter or a result. -/
def sigSyn (H : Head) : Ty → SType
  | .obj => H.obj
  | .self => H.self
  | .slice => .ref (.slice (namesTy ["u8"])) H.slice
  | .result t => .path [.name "", .name "core", .name "result", .name "Result"] [sigSyn H t, .ref (namesTy ["str"])]
  | t => tySyn t

/-- The result type. -/
def retSyn (H : Head) : Ty → Option SType
  | .unit => none
  | t => some (sigSyn H t)

/-- The expression at the end of a body. A builder wraps the bitfield. -/
def tailSyn (C : Style) (builder : Bool) (tail : Expr) : List SStmt :=
  match builder, tail with
  | _, .unit => []
  | true, .assoc true f => [.expr (.struct [.name "Self"] [("this", exprSyn C (.assoc true f))]) false]
  | true, .whole false => [.expr (.struct [.name "Self"] [("this", exprSyn C (.whole false))]) false]
  | _, e => [.expr (exprSyn C e) false]

/-- A function. -/
def fnSyn (C : Style) (H : Head) (tag : Tag) (fn : Fn) : SFn where
  vis := H.vis
  const := H.const
  name := tagName tag
  recv := H.recv
  params := fn.params.map fun x => (x.1, sigSyn H x.2)
  ret := retSyn H fn.ret
  body := stmtSyn C fn.body ++ tailSyn C fn.builder fn.tail

/-! ## The items of a bitfield -/

/-- Whether the functions are `const`. -/
def Printer.constant (P : Printer) : Bool :=
  P.ignored.isEmpty && P.constMut && !(P.B.heap && match P.B.backing with | .int _ => false | .arr _ => true)

/-- A function with the visibility of the struct. -/
def Printer.head (P : Printer) (recv : Recv) (slice : Bool := false) : Head :=
  ⟨some P.vis, P.constant, recv, .unit, namesTy ["Self"], slice⟩

/-- A function for a field with the visibility of the struct. -/
def Printer.opHead (P : Printer) (f : Field) (recv : Recv) : Head :=
  ⟨some P.vis, P.constant, recv, dataSyn f.ty, namesTy ["Self"], false⟩

/-- A function for a field with the visibility of the field. -/
def Printer.fieldHead (P : Printer) (f : Field) (recv : Recv) : Head :=
  ⟨some (P.fieldVis f.offset), P.constant, recv, dataSyn f.ty, namesTy ["Self"], false⟩

/-- The functions of the features in `impl Name { .. }`. -/
def Printer.fns (P : Printer) : Feature → List (Head × Tag × Fn)
  | .new =>
    [(P.head .none, .fn "new", newFn P.B true), (P.head .none, .fn "new_without_defaults", newFn P.B false)]
  | .setters => (P.B.fields.filter Field.hasSetter).flatMap fun f =>
      [(P.fieldHead f .refMut, .acc .set f.name, setterFn P.B f),
       (P.fieldHead f .refMut, .acc .checkedSet f.name, checkedSetterFn P.B f)]
  | .getters => (P.B.fields.filter Field.hasGetter).map fun f =>
      (P.fieldHead f .ref, .acc .get f.name, getterFn P.B f)
  | .fromIntoBits =>
    match P.B.backing with
    | .int _ =>
      (endians.flatMap fun (s, e) =>
        [(P.head .none, .fn ("from_" ++ s ++ "bits"), fromFn P.B e false),
         (P.head .none, .fn ("from_" ++ s ++ "bits_with_defaults"), fromFn P.B e true)]) ++
      endians.map fun (s, e) => (P.head .value, .fn ("into_" ++ s ++ "bits"), intoFn P.B e)
    | .arr n =>
      (endians.flatMap fun (s, e) =>
        [(P.head .none, .fn ("from_" ++ s ++ "bytes"), fromFn P.B e false),
         (P.head .none, .fn ("from_" ++ s ++ "bytes_with_defaults"), fromFn P.B e true)]) ++
      (endians.flatMap fun (s, e) =>
        [(P.head .none, .fn ("from_" ++ s ++ "slice"), fromSliceFn P.B n e false),
         (P.head .none, .fn ("from_" ++ s ++ "slice_with_defaults"), fromSliceFn P.B n e true),
         (P.head .none, .fn ("checked_from_" ++ s ++ "slice"), checkedFromSliceFn P.B n e false),
         (P.head .none, .fn ("checked_from_" ++ s ++ "slice_with_defaults"), checkedFromSliceFn P.B n e true)]) ++
      (endians.map fun (s, e) => (P.head .ref, .fn ("into_" ++ s ++ "bytes"), intoFn P.B e)) ++
      endians.flatMap fun (s, e) =>
        [(P.head .ref true, .fn ("into_" ++ s ++ "slice"), intoSliceFn P.B n e),
         (P.head .ref true, .fn ("checked_into_" ++ s ++ "slice"), checkedIntoSliceFn P.B n e)]
  | .writeBitOps =>
      (endians.flatMap fun (s, e) =>
        [(P.head .refMut, .fn ("write_" ++ s ++ paramTok P.B), writeFn P.B e false),
         (P.head .refMut, .fn ("write_" ++ s ++ paramTok P.B ++ "_with_defaults"), writeFn P.B e true)]) ++
      [(P.head .refMut, .fn "write_defaults", writeDefaultsFn P.B)]
  | .setGetBitOps =>
      [(P.head .refMut, .fn "set_bit", setBitFn P.G),
       (P.head .refMut, .fn "checked_set_bit", checkedSetBitFn P.G),
       (P.head .refMut, .fn ("set_" ++ paramTok P.B ++ "_range"), setRangeFn P.G),
       (P.head .refMut, .fn ("checked_set_" ++ paramTok P.B ++ "_range"), checkedSetRangeFn P.G),
       (P.head .ref, .fn "get_bit", getBitFn P.G),
       (P.head .ref, .fn "checked_get_bit", checkedGetBitFn P.G),
       (P.head .ref, .fn ("get_" ++ paramTok P.B ++ "_range"), getRangeFn P.G),
       (P.head .ref, .fn ("checked_get_" ++ paramTok P.B ++ "_range"), checkedGetRangeFn P.G)]
  | .clearBitOps =>
      [(P.head .refMut, .fn ("clear_" ++ paramTok P.B), clearFn P.B false),
       (P.head .refMut, .fn ("clear_" ++ paramTok P.B ++ "_with_defaults"), clearFn P.B true)] ++
      ((P.B.fields.filter Field.hasSetter).map fun f =>
        (P.opHead f .refMut, .acc .clear f.name, clearFieldFn P.B f)) ++
      ((P.B.fields.filter fun f => f.hasSetter && f.hasDefault).map fun f =>
        (P.opHead f .refMut, .acc .clearToDefault f.name, clearToDefaultFn P.B f))
  | .invertBitOps =>
      [(P.head .refMut, .fn ("invert_" ++ paramTok P.B), invertFn P.B)] ++
      ((P.B.fields.filter Field.hasSetter).map fun f =>
        (P.opHead f .refMut, .acc .invert f.name, invertFieldFn P.B f)) ++
      ((P.B.fields.filter Field.hasGetter).map fun f =>
        (P.opHead f .ref, .acc .inverted f.name, invertedFn P.B f))
  | _ => []

/-- The constants: `const X_BITS: u32 = 4u32;` -/
def Printer.constsSyn (P : Printer) : List SMember :=
  (P.B.fields.filter Field.hasConstants).flatMap fun f =>
    [.const (some (P.fieldVis f.offset)) (Accessor.bitsConst.ident f.name) (namesTy ["u32"]) (.int f.bits "u32"),
     .const (some (P.fieldVis f.offset)) (Accessor.offsetConst.ident f.name) (namesTy ["u32"]) (.int f.offset "u32")]

/-- What a feature adds to `impl Name { .. }`. -/
def Printer.members (P : Printer) (C : Style) : Feature → List SMember
  | .constants => P.constsSyn
  | F => (P.fns F).map fun x => .fn (fnSyn C x.1 x.2.1 x.2.2)

/-- The functions of the builder. -/
def Printer.builderFns (P : Printer) : List (Head × Tag × Fn) :=
  [(P.head .none, .builderFn "new", builderNewFn P.G true),
   (P.head .none, .builderFn "new_without_defaults", builderNewFn P.G false)] ++
  (P.B.fields.filter fun f => !f.reserved).flatMap fun f =>
    [(P.fieldHead f .valueMut, .acc .builderWith f.name, withFn P.B f),
     (P.fieldHead f .valueMut, .acc .builderCheckedWith f.name, checkedWithFn P.B f)]

/-- `build(self) -> Name { self.this }` -/
def Printer.buildSyn (P : Printer) : SFn :=
  ⟨some P.vis, P.constant, "build", .value, [], some (namesTy [P.name]), [.expr (.field (names ["self"]) "this") false]⟩

/-- A function of a trait: without visibility and never `const`. -/
def traitHead (recv : Recv) (self : String) : Head := ⟨none, false, recv, .unit, namesTy [self], false⟩

/-- `fmt`: the calls of `debug.field` between the first and the last line. -/
def Printer.fmtSyn (P : Printer) (C : Style) : SFn where
  vis := none
  const := false
  name := "fmt"
  recv := .ref
  params := [("f", .ref (namesTy ["core", "fmt", "Formatter"]) true)]
  ret := some (namesTy ["core", "fmt", "Result"])
  body :=
    match (debugFn P.B).body with
    | .seq first fields =>
      stmtSyn C first ++ [.letS "debug" none (.method (names ["f"]) "debug_struct" [.str P.name]) true] ++
        stmtSyn C fields ++ [.expr (.method (names ["debug"]) "finish" []) false]
    | _ => []

/-- The stored type: `Box<[u8; n]>` for an array on the heap. -/
def Printer.storageSyn (P : Printer) : SType :=
  match P.args.arrayHeap, P.B.backing with
  | true, .arr n => .path [.name "", .name "std", .name "boxed", .name "Box"] [tySyn (.arr n)]
  | _, b => tySyn (backTy b)

/-- The tokens between `#[` and `]`. -/
def attrSyn : StructAttr → List Tok
  | .reprC => [.ident "repr", .opn .paren, .ident "C", .cls .paren]
  | .reprTransparent => [.ident "repr", .opn .paren, .ident "transparent", .cls .paren]
  | .deriveClone =>
    [.ident "derive", .opn .paren, .ident "core", .p .path, .ident "clone", .p .path, .ident "Clone", .cls .paren]
  | .deriveCopyClone =>
    [.ident "derive", .opn .paren, .ident "std", .p .path, .ident "marker", .p .path, .ident "Copy", .p .comma,
     .ident "core", .p .path, .ident "clone", .p .path, .ident "Clone", .cls .paren]
  | .user text => [.attr text]
  | .doc => [.ident "doc", .p .eq, .str "Represents a bitfield."]

/-- The attributes of the struct. -/
def Printer.structAttrs (P : Printer) : List StructAttr :=
  (if P.ignored.isEmpty then [.reprTransparent] else [.reprC]) ++
  (if P.args.copy then
    match P.args.arrayHeap, P.B.backing with
    | true, .arr _ => [.deriveClone]
    | _, _ => [.deriveCopyClone]
   else []) ++
  P.attrs.map StructAttr.user ++ [.doc]

/-- The items of a feature outside `impl Name { .. }`. -/
def Printer.items (P : Printer) (C : Style) : Feature → List SItem
  | .struct =>
    match P.ignored with
    | [] => [.tuple (P.structAttrs.map attrSyn) (some P.vis) P.name P.storageSyn]
    | i :: is =>
      [.struct (P.structAttrs.map attrSyn) (some P.vis) P.name
        ((none, "val", P.storageSyn) :: (i :: is).map fun x => (some x.2.2, x.1, dataSyn x.2.1))]
  | .fromTraits =>
    [.impl (some (.path [.name "core", .name "convert", .name "From"] [tySyn (backTy P.B.backing)])) (namesTy [P.name])
       [.fn (fnSyn C (traitHead .none "Self") (.impl .fromBacking) (traitFromFn P.B))],
     .impl (some (.path [.name "core", .name "convert", .name "From"] [namesTy [P.name]])) (tySyn (backTy P.B.backing))
       [.fn { fnSyn C (traitHead .none P.name) (.impl .intoBacking) (traitIntoFn P.B) with ret := some (namesTy ["Self"]) }]]
  | .debug => [.impl (some (namesTy ["core", "fmt", "Debug"])) (namesTy [P.name]) [.fn (P.fmtSyn C)]]
  | .default =>
    [.impl (some (namesTy ["core", "default", "Default"])) (namesTy [P.name])
       [.fn (fnSyn C (traitHead .none P.name) (.impl .default) (defaultFn P.G))]]
  | .builder =>
    [.struct [[.ident "doc", .p .eq, .str "A builder for the bitfield."]] (some P.vis) (P.name ++ "Builder")
       [(none, "this", namesTy [P.name])],
     .impl (some (namesTy ["Default"])) (namesTy [P.name ++ "Builder"])
       [.fn (fnSyn C (traitHead .none "Self") (.impl .builderDefault) builderDefaultFn)],
     .impl none (namesTy [P.name ++ "Builder"])
       (P.builderFns.map (fun x => .fn (fnSyn C x.1 x.2.1 x.2.2)) ++ [.fn P.buildSyn])]
  | _ => []

/-- The features that are enabled at a position. -/
def Printer.section (P : Printer) (pos : Position) : List Feature :=
  (enabledFeatures P.args).filter fun F => decide (F.position = pos)

/-- The whole expansion. -/
def Printer.expansion (P : Printer) (C : Style) : List SItem :=
  (P.section .above).flatMap (P.items C) ++
  [.impl none (namesTy [P.name]) ((P.section .inside).flatMap (P.members C))] ++
  (P.section .below).flatMap (P.items C)

/-! ## The printer's input -/

/-- How an ignored member is made. -/
def defaultSyn : DataType → SExpr
  | .custom c => .call (.path [.custom c, .name "default"]) []
  | t => .call (.qpath (tySyn (fieldTy t)) [.name "default"]) []

/-- The default expression of a field of this type, as tokens and as a tree: an opaque token, a literal, a negated
literal, a path, a call of a function without arguments or with a literal, `[a; n]`. -/
inductive Simple : DataType → List Tok → SExpr → Prop
  | user (t : DataType) (k : Nat) : Simple t [.user k] (.user k)
  | int (t : DataType) (n : Nat) (s : String) : Simple t [.int n s] (.int n s)
  | neg (t : IntTy) (n : Nat) (s : String) : Simple (.int t) [.p .sub, .int n s] (.pre .neg (.int n s))
  | name (t : DataType) (x : String) : Simple t [.ident x] (names [x])
  | path (t : DataType) (x y : String) : Simple t [.ident x, .p .path, .ident y] (names [x, y])
  | call0 (t : DataType) (x y : String) :
      Simple t [.ident x, .p .path, .ident y, .opn .paren, .cls .paren] (.call (names [x, y]) [])
  | call1 (t : DataType) (x y : String) (n : Nat) (s : String) :
      Simple t [.ident x, .p .path, .ident y, .opn .paren, .int n s, .cls .paren] (.call (names [x, y]) [.int n s])
  | repeated (t : DataType) (a : Nat) (s : String) (n : Nat) (s' : String) :
      Simple t [.opn .bracket, .int a s, .p .semi, .int n s', .cls .bracket] (.repeated (.int a s) (.int n s'))

/-- The printer prints what the style describes. -/
structure Fits (P : Printer) (C : Style) : Prop where
  name : C.name = P.name
  ignored : C.ignored = P.ignored.map fun x => (x.1, defaultSyn x.2.1)
  user : ∀ f ∈ P.B.fields, f.hasDefault = true → Simple f.ty (P.default f.offset) (C.user f.offset)
  noArray : ∀ x ∈ P.ignored, ∀ n, x.2.1 ≠ .array n

end Bf.Text
