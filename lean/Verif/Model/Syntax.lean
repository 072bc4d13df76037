import Verif.Model.Tokens

/-!
# Reading Rust

A parser for the part of Rust's grammar the macro prints (the Rust reference, not repo code): operator precedence,
the end of statements that are blocks, no struct literals in conditions, no chained comparisons. Parentheses leave no
trace in the result. Attributes of functions and statements, and lifetimes, are read over.
-/

namespace Bf.Text

/-- A segment of a path. A leading `::` is an empty name. -/
inductive Seg where
  | name (s : String)
  | custom (c : Codec)

/-- Types. -/
inductive SType where
  /-- `a::b<T, ..>`; `_` is a path too -/
  | path (segs : List Seg) (args : List SType)
  | arr (elem : SType) (len : Nat) (suffix : String)
  | slice (elem : SType)
  /-- `&T`, with `mu` `&mut T` -/
  | ref (t : SType) (mu : Bool := false)
  | unit

/-- Binary operators, from the tightest to the loosest. -/
inductive SOp where
  | mul | div | rem | add | sub | shl | shr | and | xor | or | eq | ne | lt | gt | le | ge | andAlso | orElse | range
deriving DecidableEq, Repr

/-- Prefix operators. -/
inductive SPre where
  | neg | not | deref | ref
deriving DecidableEq, Repr

mutual

/-- Expressions. -/
inductive SExpr where
  | path (segs : List Seg)
  /-- `<T>::a::b` -/
  | qpath (t : SType) (segs : List Seg)
  | int (n : Nat) (suffix : String)
  | str (s : String)
  | user (offset : Nat)
  | unit
  | pre (op : SPre) (e : SExpr)
  | bin (op : SOp) (a b : SExpr)
  | cast (e : SExpr) (t : SType)
  | call (f : SExpr) (args : List SExpr)
  | method (e : SExpr) (name : String) (args : List SExpr)
  | field (e : SExpr) (name : String)
  /-- `e.0` -/
  | tupleField (e : SExpr) (n : Nat)
  | index (a i : SExpr)
  /-- `[e; n]` -/
  | repeated (e n : SExpr)
  | array (es : List SExpr)
  | block (ss : List SStmt)
  | ite (c : SExpr) (a : List SStmt) (b : Option (List SStmt))
  | ret (e : Option SExpr)
  | matching (e : SExpr) (arms : List (SExpr × SExpr))
  /-- `Path { name: e, name, .. }` -/
  | struct (segs : List Seg) (fields : List (String × SExpr))

/-- Statements. -/
inductive SStmt where
  /-- `let x: T = e;`, with `mu` `let mut ..` -/
  | letS (x : String) (t : Option SType) (e : SExpr) (mu : Bool := false)
  | assign (op : Option SOp) (place e : SExpr)
  | loop (c : SExpr) (body : List SStmt)
  /-- an expression, with or without a semicolon -/
  | expr (e : SExpr) (semi : Bool)

end

/-- The operator of a token and how tightly it binds. -/
def SOp.ofPunct : Punct → Option (SOp × Nat)
  | .mul => some (.mul, 11)
  | .div => some (.div, 11)
  | .rem => some (.rem, 11)
  | .add => some (.add, 10)
  | .sub => some (.sub, 10)
  | .shl => some (.shl, 9)
  | .shr => some (.shr, 9)
  | .and => some (.and, 8)
  | .xor => some (.xor, 7)
  | .or => some (.or, 6)
  | .eqeq => some (.eq, 5)
  | .ne => some (.ne, 5)
  | .lt => some (.lt, 5)
  | .gt => some (.gt, 5)
  | .le => some (.le, 5)
  | .ge => some (.ge, 5)
  | .andand => some (.andAlso, 4)
  | .oror => some (.orElse, 3)
  | .dotdot => some (.range, 2)
  | _ => none

/-- The operator of an assignment. -/
def assignPunct : Punct → Option (Option SOp)
  | .eq => some none
  | .addEq => some (some .add)
  | .orEq => some (some .or)
  | .andEq => some (some .and)
  | .xorEq => some (some .xor)
  | _ => none

/-- The prefix operator of a token. -/
def SPre.ofPunct : Punct → Option SPre
  | .sub => some .neg
  | .not => some .not
  | .mul => some .deref
  | .and => some .ref
  | _ => none

/-- The token that must come next. -/
def expectP (q : Punct) : List Tok → Option (List Tok)
  | .p q' :: ts => if q = q' then some ts else none
  | _ => none

/-- The opening delimiter that must come next. -/
def expectOpn (d : Delim) : List Tok → Option (List Tok)
  | .opn d' :: ts => if d = d' then some ts else none
  | _ => none

/-- The closing delimiter that must come next. -/
def expectCls (d : Delim) : List Tok → Option (List Tok)
  | .cls d' :: ts => if d = d' then some ts else none
  | _ => none

/-- What follows `::` or begins a path. -/
def segment : Tok → Option Seg
  | .ident s => some (.name s)
  | .custom c => some (.custom c)
  | _ => none

/-- The rest of a path. -/
def pathRest : List Tok → List Seg × List Tok
  | .p .path :: t :: ts =>
    match segment t with
    | some s => let (ss, r) := pathRest ts; (s :: ss, r)
    | none => ([], .p .path :: t :: ts)
  | ts => ([], ts)

/-- A path. -/
def parsePath : List Tok → Option (List Seg × List Tok)
  | .p .path :: ts => let (ss, r) := pathRest (.p .path :: ts); some (.name "" :: ss, r)
  | t :: ts =>
    match segment t with
    | some s => let (ss, r) := pathRest ts; some (s :: ss, r)
    | none => none
  | [] => none

/-- Whether the next token is `mut`, and what follows it. -/
def readMut : List Tok → Bool × List Tok
  | .kw .mut_ :: ts => (true, ts)
  | ts => (false, ts)

/-- Reading over a lifetime. -/
def skipLifetime : List Tok → List Tok
  | .lifetime _ :: ts => ts
  | ts => ts

mutual

/-- A type. -/
def parseType : Nat → List Tok → Option (SType × List Tok)
  | 0, _ => none
  | n + 1, .p .and :: ts => do
    let (mu, r) := readMut (skipLifetime ts)
    let (t, r) ← parseType n r
    return (.ref t mu, r)
  | _ + 1, .opn .paren :: .cls .paren :: ts => some (.unit, ts)
  | n + 1, .opn .bracket :: ts => do
    let (t, r) ← parseType n ts
    match r with
    | .p .semi :: .int k s :: .cls .bracket :: r => return (.arr t k s, r)
    | .cls .bracket :: r => return (.slice t, r)
    | _ => none
  | n + 1, ts => do
    let (p, r) ← parsePath ts
    match r with
    | .p .lt :: r => do
      let (as, r) ← parseTypes n r
      return (.path p as, r)
    | _ => return (.path p [], r)

/-- The arguments of a generic type, up to `>`. -/
def parseTypes : Nat → List Tok → Option (List SType × List Tok)
  | 0, _ => none
  | _ + 1, .lifetime _ :: .p .gt :: ts => some ([], ts)
  | n + 1, ts => do
    let (t, r) ← parseType n ts
    match r with
    | .p .comma :: r => do
      let (as, r) ← parseTypes n r
      return (t :: as, r)
    | .p .gt :: r => return ([t], r)
    | _ => none

end

/-- Reading over an attribute: up to the matching `]`, `depth` brackets deep. -/
def skipAttr : Nat → List Tok → Option (List Tok)
  | d, .opn .bracket :: ts => skipAttr (d + 1) ts
  | d, .cls .bracket :: ts => if d ≤ 1 then some ts else skipAttr (d - 1) ts
  | d, _ :: ts => skipAttr d ts
  | _, [] => none

/-- A comparison. -/
def SOp.comparison : SOp → Bool
  | .eq | .ne | .lt | .gt | .le | .ge => true
  | _ => false

/-- Whether an expression is a pattern without parts: a literal, a path, `_` or `()`. -/
def SExpr.isAtom : SExpr → Bool
  | .int _ _ | .path _ | .unit => true
  | .pre .neg (.int _ _) => true
  | _ => false

/-- Whether an expression is a pattern: an atom or `F(p, ..)`. -/
def SExpr.isPat : SExpr → Bool
  | .call (.path _) as => as.all SExpr.isAtom
  | e => e.isAtom

/-- The next token is a comparison. -/
def nextCompares : List Tok → Bool
  | .p q :: _ =>
    match SOp.ofPunct q with
    | some (op, _) => op.comparison
    | none => false
  | _ => false

/-- The next token is `<` or `<<`, which after a type begins generic arguments. -/
def nextGeneric : List Tok → Bool
  | .p .lt :: _ | .p .shl :: _ => true
  | _ => false

mutual

/-- An expression whose operators bind at least as tightly as `min`. With `lit` it may be a struct literal. The
first argument bounds the nesting. -/
def parseBin : Nat → Bool → Nat → List Tok → Option (SExpr × List Tok)
  | 0, _, _, _ => none
  | n + 1, lit, min, ts => do
    let (e, r) ← parseUnary n lit ts
    climb n lit min e r

/-- The operators after an expression. -/
def climb : Nat → Bool → Nat → SExpr → List Tok → Option (SExpr × List Tok)
  | 0, _, _, _, _ => none
  | n + 1, lit, min, e, .kw .as_ :: ts => do
    let (t, r) ← parseType n ts
    if nextGeneric r then none else climb n lit min (.cast e t) r
  | n + 1, lit, min, e, .p q :: ts =>
    match SOp.ofPunct q with
    | some (op, k) =>
      if min ≤ k then do
        let (b, r) ← parseBin n lit (k + 1) ts
        if op.comparison && nextCompares r then none else climb n lit min (.bin op e b) r
      else some (e, .p q :: ts)
    | none => some (e, .p q :: ts)
  | _ + 1, _, _, e, ts => some (e, ts)

/-- An expression without infix operators. -/
def parseUnary : Nat → Bool → List Tok → Option (SExpr × List Tok)
  | 0, _, _ => none
  | n + 1, lit, .p q :: ts =>
    match SPre.ofPunct q with
    | some op => do
      let (e, r) ← parseUnary n lit ts
      return (.pre op e, r)
    | none => do
      let (e, r) ← parsePrimary n lit (.p q :: ts)
      suffixes n e r
  | n + 1, lit, ts => do
    let (e, r) ← parsePrimary n lit ts
    suffixes n e r

/-- Calls, fields and indices after an expression. -/
def suffixes : Nat → SExpr → List Tok → Option (SExpr × List Tok)
  | 0, _, _ => none
  | n + 1, e, .p .dot :: .int k _ :: ts => suffixes n (.tupleField e k) ts
  | n + 1, e, .p .dot :: .ident x :: .opn .paren :: ts => do
    let (as, r) ← parseArgs n .paren ts
    suffixes n (.method e x as) r
  | n + 1, e, .p .dot :: .ident x :: ts => suffixes n (.field e x) ts
  | n + 1, e, .opn .bracket :: ts => do
    let (i, r) ← parseBin n true 2 ts
    let r ← expectCls .bracket r
    suffixes n (.index e i) r
  | n + 1, e, .opn .paren :: ts => do
    let (as, r) ← parseArgs n .paren ts
    suffixes n (.call e as) r
  | _ + 1, e, ts => some (e, ts)

/-- Expressions with commas between them, up to the delimiter. -/
def parseArgs : Nat → Delim → List Tok → Option (List SExpr × List Tok)
  | 0, _, _ => none
  | n + 1, d, ts =>
    match expectCls d ts with
    | some r => some ([], r)
    | none => do
      let (e, r) ← parseBin n true 2 ts
      match r with
      | .p .comma :: r => do
        let (es, r) ← parseArgs n d r
        return (e :: es, r)
      | r => do
        let r ← expectCls d r
        return ([e], r)

/-- Literals, paths, blocks and what is in delimiters. -/
def parsePrimary : Nat → Bool → List Tok → Option (SExpr × List Tok)
  | 0, _, _ => none
  | _ + 1, _, .int k s :: ts => some (.int k s, ts)
  | _ + 1, _, .str s :: ts => some (.str s, ts)
  | _ + 1, _, .user k :: ts => some (.user k, ts)
  | _ + 1, _, .opn .paren :: .cls .paren :: ts => some (.unit, ts)
  | n + 1, _, .opn .paren :: ts => do
    let (e, r) ← parseBin n true 2 ts
    let r ← expectCls .paren r
    return (e, r)
  | _ + 1, _, .opn .bracket :: .cls .bracket :: ts => some (.array [], ts)
  | n + 1, _, .opn .bracket :: ts => do
    let (e, r) ← parseBin n true 2 ts
    match r with
    | .p .semi :: r => do
      let (k, r) ← parseBin n true 2 r
      let r ← expectCls .bracket r
      return (.repeated e k, r)
    | .p .comma :: r => do
      let (es, r) ← parseArgs n .bracket r
      return (.array (e :: es), r)
    | r => do
      let r ← expectCls .bracket r
      return (.array [e], r)
  | n + 1, _, .opn .brace :: ts => do
    let (ss, r) ← parseStmts n ts
    let r ← expectCls .brace r
    return (.block ss, r)
  | n + 1, _, .kw .if_ :: ts => do
    let (c, r) ← parseBin n false 2 ts
    let r ← expectOpn .brace r
    let (a, r) ← parseStmts n r
    let r ← expectCls .brace r
    match r with
    | .kw .else_ :: .opn .brace :: r => do
      let (b, r) ← parseStmts n r
      let r ← expectCls .brace r
      return (.ite c a (some b), r)
    | _ => return (.ite c a none, r)
  | _ + 1, _, .kw .return_ :: .p .semi :: ts => some (.ret none, .p .semi :: ts)
  | n + 1, lit, .kw .return_ :: ts => do
    let (e, r) ← parseBin n lit 2 ts
    return (.ret (some e), r)
  | n + 1, _, .kw .match_ :: ts => do
    let (e, r) ← parseBin n false 2 ts
    let r ← expectOpn .brace r
    let (as, r) ← parseArms n r
    return (.matching e as, r)
  | n + 1, _, .p .lt :: ts => do
    let (t, r) ← parseType n ts
    let r ← expectP .gt r
    let (ss, r) := pathRest r
    return (.qpath t ss, r)
  | n + 1, lit, ts => do
    let (p, r) ← parsePath ts
    match r with
    | .opn .brace :: r' =>
      if lit then do
        let (fs, r) ← parseFields n r'
        return (.struct p fs, r)
      else return (.path p, r)
    | _ => return (.path p, r)

/-- The fields of a struct literal, up to `}`. -/
def parseFields : Nat → List Tok → Option (List (String × SExpr) × List Tok)
  | 0, _ => none
  | _ + 1, .cls .brace :: ts => some ([], ts)
  | n + 1, .ident x :: .p .colon :: ts => do
    let (e, r) ← parseBin n true 2 ts
    match r with
    | .p .comma :: r => do
      let (fs, r) ← parseFields n r
      return ((x, e) :: fs, r)
    | r => do
      let r ← expectCls .brace r
      return ([(x, e)], r)
  | n + 1, .ident x :: .p .comma :: ts => do
    let (fs, r) ← parseFields n ts
    return ((x, .path [.name x]) :: fs, r)
  | _ + 1, _ => none

/-- The arms of a `match`, up to `}`. A pattern is an expression with `isPat`. -/
def parseArms : Nat → List Tok → Option (List (SExpr × SExpr) × List Tok)
  | 0, _ => none
  | _ + 1, .cls .brace :: ts => some ([], ts)
  | n + 1, ts => do
    let (p, r) ← parseBin n true 2 ts
    let r ← expectP .fat r
    let (e, r) ← parseBin n true 2 r
    if p.isPat then
      match r with
      | .p .comma :: r => do
        let (as, r) ← parseArms n r
        return ((p, e) :: as, r)
      | r => do
        let r ← expectCls .brace r
        return ([(p, e)], r)
    else none

/-- Statements, up to `}` or the end. -/
def parseStmts : Nat → List Tok → Option (List SStmt × List Tok)
  | 0, _ => none
  | _ + 1, [] => some ([], [])
  | _ + 1, .cls .brace :: ts => some ([], .cls .brace :: ts)
  | n + 1, t :: ts => do
    let (s, r) ← parseStmt n (t :: ts)
    let (ss, r) ← parseStmts n r
    return (s ++ ss, r)

/-- One statement, or none if it is an attribute of the next. A statement that begins with `if`, `match`, `while` or
`{` ends with its last `}`. -/
def parseStmt : Nat → List Tok → Option (List SStmt × List Tok)
  | 0, _ => none
  | _ + 1, .p .hash :: ts => do
    let r ← skipAttr 0 ts
    return ([], r)
  | n + 1, .kw .let_ :: ts =>
    match readMut ts with
    | (mu, .ident x :: .p .colon :: r) => do
      let (t, r) ← parseType n r
      let r ← expectP .eq r
      let (e, r) ← parseBin n true 2 r
      let r ← expectP .semi r
      return ([.letS x (some t) e mu], r)
    | (mu, .ident x :: .p .eq :: r) => do
      let (e, r) ← parseBin n true 2 r
      let r ← expectP .semi r
      return ([.letS x none e mu], r)
    | _ => none
  | n + 1, .kw .while_ :: ts => do
    let (c, r) ← parseBin n false 2 ts
    let r ← expectOpn .brace r
    let (ss, r) ← parseStmts n r
    let r ← expectCls .brace r
    return ([.loop c ss], r)
  | n + 1, .kw .if_ :: ts => do
    let (e, r) ← parsePrimary n true (.kw .if_ :: ts)
    return ([.expr e false], r)
  | n + 1, .kw .match_ :: ts => do
    let (e, r) ← parsePrimary n true (.kw .match_ :: ts)
    return ([.expr e false], r)
  | n + 1, .opn .brace :: ts => do
    let (e, r) ← parsePrimary n true (.opn .brace :: ts)
    return ([.expr e false], r)
  | n + 1, ts => do
    let (e, r) ← parseBin n true 2 ts
    match r with
    | .p .semi :: r => return ([.expr e true], r)
    | .p q :: r =>
      match assignPunct q with
      | some op => do
        let (b, r) ← parseBin n true 2 r
        let r ← expectP .semi r
        return ([.assign op e b], r)
      | none => none
    | [] => return ([.expr e false], [])
    | .cls .brace :: r => return ([.expr e false], .cls .brace :: r)
    | _ => none

end

/-! ## Functions -/

/-- How a function takes its receiver. -/
inductive Recv where
  | none
  /-- `self` -/
  | value
  /-- `mut self` -/
  | valueMut
  /-- `&self` -/
  | ref
  /-- `&mut self` -/
  | refMut
deriving DecidableEq, Repr

/-- A function. Attributes are read over. -/
structure SFn where
  vis : Option Vis
  const : Bool
  name : String
  recv : Recv
  params : List (String × SType)
  ret : Option SType
  body : List SStmt

/-- What is in an `impl`. -/
inductive SMember where
  | fn (f : SFn)
  | const (vis : Option Vis) (name : String) (t : SType) (e : SExpr)

/-- An item. -/
inductive SItem where
  /-- `struct Name(T);` -/
  | tuple (attrs : List (List Tok)) (vis : Option Vis) (name : String) (t : SType)
  /-- `struct Name { x: T, .. }` -/
  | struct (attrs : List (List Tok)) (vis : Option Vis) (name : String)
      (members : List (Option Vis × String × SType))
  /-- `enum Name { x = e, .. }`; the variants with their attributes -/
  | enum (attrs : List (List Tok)) (vis : Option Vis) (name : String)
      (variants : List (List (List Tok) × String × SExpr))
  | impl (tr : Option SType) (t : SType) (members : List SMember)

/-- Parameters, up to `)`. -/
def parseParams : Nat → List Tok → Option (List (String × SType) × List Tok)
  | 0, _ => none
  | _ + 1, .cls .paren :: ts => some ([], ts)
  | n + 1, .ident x :: .p .colon :: ts => do
    let (t, r) ← parseType n ts
    match r with
    | .p .comma :: r => do
      let (ps, r) ← parseParams n r
      return ((x, t) :: ps, r)
    | r => do
      let r ← expectCls .paren r
      return ([(x, t)], r)
  | _ + 1, _ => none

/-- What follows the receiver. -/
def skipComma : List Tok → List Tok
  | .p .comma :: ts => ts
  | ts => ts

/-- The receiver. -/
def parseRecv : List Tok → Recv × List Tok
  | .p .and :: .kw .mut_ :: .ident "self" :: ts => (.refMut, skipComma ts)
  | .p .and :: .ident "self" :: ts => (.ref, skipComma ts)
  | .kw .mut_ :: .ident "self" :: ts => (.valueMut, skipComma ts)
  | .ident "self" :: ts => (.value, skipComma ts)
  | ts => (.none, ts)

/-- The tokens of an attribute, up to the `]` that belongs to the `[` before, `depth` further brackets deep. -/
def readAttr : Nat → List Tok → Option (List Tok × List Tok)
  | d, .opn .bracket :: ts => do
    let (a, r) ← readAttr (d + 1) ts
    return (.opn .bracket :: a, r)
  | 0, .cls .bracket :: ts => some ([], ts)
  | d + 1, .cls .bracket :: ts => do
    let (a, r) ← readAttr d ts
    return (.cls .bracket :: a, r)
  | d, t :: ts => do
    let (a, r) ← readAttr d ts
    return (t :: a, r)
  | _, [] => none

/-- Attributes. -/
def readAttrs : Nat → List Tok → Option (List (List Tok) × List Tok)
  | 0, _ => none
  | n + 1, .p .hash :: .opn .bracket :: ts => do
    let (a, r) ← readAttr 0 ts
    let (as, r) ← readAttrs n r
    return (a :: as, r)
  | n + 1, .attr s :: ts => do
    let (as, r) ← readAttrs n ts
    return ([.attr s] :: as, r)
  | _ + 1, ts => some ([], ts)

/-- A visibility. -/
def readVis : List Tok → Option Vis × List Tok
  | .vis v :: ts => (some v, ts)
  | ts => (none, ts)

/-- The signature of a function from its parameters on, up to `{`. -/
def parseSignature (n : Nat) (vis : Option Vis) (const : Bool) (x : String) (ts : List Tok) :
    Option (SFn × List Tok) := do
  let (recv, r) := parseRecv ts
  let (params, r) ← parseParams n r
  match r with
  | .p .arrow :: r => do
    let (t, r) ← parseType n r
    let r ← expectOpn .brace r
    return ({ vis, const, name := x, recv, params, ret := some t, body := [] }, r)
  | r => do
    let r ← expectOpn .brace r
    return ({ vis, const, name := x, recv, params, ret := none, body := [] }, r)

/-- A constant, or a function up to `{`. -/
def parseOpen (n : Nat) (ts : List Tok) : Option ((SFn ⊕ SMember) × List Tok) := do
  let (_, r) ← readAttrs n ts
  let (vis, r) := readVis r
  match r with
  | .kw .const_ :: .kw .fn_ :: .ident x :: .opn .paren :: r => do
    let (f, r) ← parseSignature n vis true x r
    return (.inl f, r)
  | .kw .fn_ :: .ident x :: .opn .paren :: r => do
    let (f, r) ← parseSignature n vis false x r
    return (.inl f, r)
  | .kw .const_ :: .ident x :: .p .colon :: r => do
    let (t, r) ← parseType n r
    let r ← expectP .eq r
    let (e, r) ← parseBin n true 2 r
    let r ← expectP .semi r
    return (.inr (.const vis x t e), r)
  | _ => none

/-- A constant or a function. -/
def parseMember (n : Nat) (ts : List Tok) : Option (SMember × List Tok) := do
  let (m, r) ← parseOpen n ts
  match m with
  | .inr m => return (m, r)
  | .inl f => do
    let (ss, r) ← parseStmts n r
    let r ← expectCls .brace r
    return (.fn { f with body := ss }, r)

/-- What is in an `impl`, up to `}`. -/
def parseMembers : Nat → List Tok → Option (List SMember × List Tok)
  | 0, _ => none
  | _ + 1, .cls .brace :: ts => some ([], ts)
  | n + 1, ts => do
    let (m, r) ← parseMember n ts
    let (ms, r) ← parseMembers n r
    return (m :: ms, r)

/-- The members of a struct, up to `}`. -/
def parseDecls : Nat → List Tok → Option (List (Option Vis × String × SType) × List Tok)
  | 0, _ => none
  | _ + 1, .cls .brace :: ts => some ([], ts)
  | n + 1, ts => do
    let (v, r) := readVis ts
    match r with
    | .ident x :: .p .colon :: r => do
      let (t, r) ← parseType n r
      match r with
      | .p .comma :: r => do
        let (ds, r) ← parseDecls n r
        return ((v, x, t) :: ds, r)
      | r => do
        let r ← expectCls .brace r
        return ([(v, x, t)], r)
    | _ => none

/-- The variants of an enum, up to `}`. Each has a discriminant and no fields. -/
def parseVariants : Nat → List Tok → Option (List (List (List Tok) × String × SExpr) × List Tok)
  | 0, _ => none
  | _ + 1, .cls .brace :: ts => some ([], ts)
  | n + 1, ts => do
    let (as, r) ← readAttrs n ts
    match r with
    | .ident x :: .p .eq :: r => do
      let (e, r) ← parseBin n true 2 r
      match r with
      | .p .comma :: r => do
        let (vs, r) ← parseVariants n r
        return ((as, x, e) :: vs, r)
      | r => do
        let r ← expectCls .brace r
        return ([(as, x, e)], r)
    | _ => none

/-- A struct, an enum, or an `impl` up to `{`. -/
def parseTop (n : Nat) (ts : List Tok) : Option (((Option SType × SType) ⊕ SItem) × List Tok) := do
  let (as, r) ← readAttrs n ts
  let (vis, r) := readVis r
  match r with
  | .kw .struct_ :: .ident x :: .opn .paren :: r => do
    let (t, r) ← parseType n r
    let r ← expectCls .paren r
    let r ← expectP .semi r
    return (.inr (.tuple as vis x t), r)
  | .kw .struct_ :: .ident x :: .opn .brace :: r => do
    let (ds, r) ← parseDecls n r
    return (.inr (.struct as vis x ds), r)
  | .kw .enum_ :: .ident x :: .opn .brace :: r => do
    let (vs, r) ← parseVariants n r
    return (.inr (.enum as vis x vs), r)
  | .kw .impl_ :: r => do
    let (t, r) ← parseType n r
    match r with
    | .kw .for_ :: r => do
      let (u, r) ← parseType n r
      let r ← expectOpn .brace r
      return (.inl (some t, u), r)
    | r => do
      let r ← expectOpn .brace r
      return (.inl (none, t), r)
  | _ => none

/-- An item. -/
def parseItem (n : Nat) (ts : List Tok) : Option (SItem × List Tok) := do
  let (i, r) ← parseTop n ts
  match i with
  | .inr i => return (i, r)
  | .inl (tr, t) => do
    let (ms, r) ← parseMembers n r
    return (.impl tr t ms, r)

/-- Items, up to the end. -/
def parseItems : Nat → List Tok → Option (List SItem)
  | 0, _ => none
  | _ + 1, [] => some []
  | n + 1, ts => do
    let (i, r) ← parseItem n ts
    let is ← parseItems n r
    return i :: is

end Bf.Text
