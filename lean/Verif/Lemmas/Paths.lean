import Verif.SpecPaths
import Verif.Lemmas.Const

/-!
# Paths: helper lemmas
-/

namespace Bf.Quote

open Rust

variable {B : Bitfield} {f : Field}

/-! ## Code that may be `const` contains no path -/

mutual

theorem exprPaths_const : ∀ e : Expr, e.constOk = true → exprPaths e = []
  | .contains _ _ _, h | .boxNew _, h | .deref _, h => by cases h
  | .method _ f e, h => by
    simp only [Expr.constOk, Bool.and_eq_true] at h
    simpa [exprPaths] using exprPaths_const e h.2
  | .assoc _ f, _ => rfl
  | .not e, h | .neg e, h | .cast e _, h | .castInfer e, h | .fromBits _ e, h | .intoBits e, h | .swapBytes e, h
  | .len e, h | .okE e, h => by simpa [exprPaths] using exprPaths_const e h
  | .bin _ a b, h | .orElse a b, h | .andAlso a b, h | .index a b, h => by
    simp only [Expr.constOk, Bool.and_eq_true] at h
    simp [exprPaths, exprPaths_const a h.1, exprPaths_const b h.2]
  | .ite c a b, h => by
    simp only [Expr.constOk, Bool.and_eq_true] at h
    simp [exprPaths, exprPaths_const c h.1.1, exprPaths_const a h.1.2, exprPaths_const b h.2]
  | .block s e, h => by
    simp only [Expr.constOk, Bool.and_eq_true] at h
    simp [exprPaths, stmtPaths_const s h.1, exprPaths_const e h.2]
  | .var _, _ | .inner _, _ | .whole _, _ | .lit _ _, _ | .bool _, _ | .user _ _ _, _ | .const _ _ _, _ | .maxOf _, _
  | .bitsOf _, _ | .zeros _, _ | .bytes _, _ | .unit, _ | .errE _, _ => rfl

theorem stmtPaths_const : ∀ s : Stmt, s.constOk = true → stmtPaths s = []
  | .debugField _ _, h => by cases h
  | .skip, _ | .letThis, _ | .moveThis _, _ => rfl
  | .seq a b, h => by
    simp only [Stmt.constOk, Bool.and_eq_true] at h
    simp [stmtPaths, stmtPaths_const a h.1, stmtPaths_const b h.2]
  | .letS _ _ e _, h | .initThis _ e _, h | .assign _ _ e, h | .assignInner _ _ e, h | .expr e, h | .ret e, h | .tryS e, h => by
    simpa [stmtPaths] using exprPaths_const e h
  | .assignElem _ i _ e, h | .assignInnerElem _ i _ e, h => by
    simp only [Stmt.constOk, Bool.and_eq_true] at h
    simp [stmtPaths, exprPaths_const i h.1, exprPaths_const e h.2]
  | .ite c a b, h => by
    simp only [Stmt.constOk, Bool.and_eq_true] at h
    simp [stmtPaths, exprPaths_const c h.1.1, stmtPaths_const a h.1.2, stmtPaths_const b h.2]
  | .loop c s, h => by
    simp only [Stmt.constOk, Bool.and_eq_true] at h
    simp [stmtPaths, exprPaths_const c h.1, stmtPaths_const s h.2]
  | .scope s, h => by simpa [stmtPaths] using stmtPaths_const s h

end

/-- The body of the function contains no path. -/
def Plain (f : Fn) : Prop := stmtPaths f.body = [] ∧ exprPaths f.tail = []

theorem plain_const {f : Fn} (h : f.constOk = true) : Plain f := by
  simp only [Fn.constOk, Bool.and_eq_true] at h
  exact ⟨stmtPaths_const _ h.1, exprPaths_const _ h.2⟩

theorem typePaths_core (t : Ty) : ∀ q ∈ typePaths t, q.InCore := by
  induction t with
  | result t ih =>
    intro q hq
    simp only [typePaths, List.mem_cons] at hq
    rcases hq with rfl | hq
    · rfl
    · exact ih q hq
  | _ => intro q hq; cases hq

theorem fnPaths_plain {f : Fn} (h : Plain f) : ∀ q ∈ fnPaths f, q.InCore := by
  intro q hq
  simp only [fnPaths, h.1, h.2, List.append_nil, List.mem_append, List.mem_flatMap] at hq
  rcases hq with ⟨x, _, hq⟩ | hq <;> exact typePaths_core _ q hq

theorem headPaths_core (t : Tag) : ∀ q ∈ headPaths t, q.InCore := by
  unfold headPaths
  split <;> simp [Path.InCore]

/-! ## The functions that are not `const` -/

theorem stmtPaths_all {ss : List Stmt} (h : ∀ s ∈ ss, stmtPaths s = []) : stmtPaths (Stmt.all ss) = [] := by
  induction ss with
  | nil => rfl
  | cons s ss ih =>
    simp only [Stmt.all, stmtPaths, h s (by simp), ih fun s hs => h s (by simp [hs]), List.append_nil]

theorem fieldGuard_paths {G : Gen} (read : Bool) {r : Stmt} (h : stmtPaths r = []) :
    stmtPaths (fieldGuardTok G read r) = [] := by
  refine stmtPaths_all fun s hs => ?_
  obtain ⟨f, -, rfl⟩ := List.mem_map.mp hs
  cases G.ignored <;> simp [stmtPaths, exprPaths, h]

section Guarded

variable {G : Gen}

theorem offsetGuard_paths {r : Stmt} (h : r.constOk = true) : stmtPaths (offsetGuardTok B r) = [] :=
  stmtPaths_const _ (by rw [offsetGuard_constOk]; exact h)

theorem setBitFn_plain : Plain (setBitFn G) := by
  have hf := fieldGuard_paths (G := G) false (r := .ret .unit) rfl
  have ho := offsetGuard_paths (B := G.B) (r := .ret .unit) rfl
  have h1 := stmtPaths_const _ (setBit_constOk (B := G.B))
  simp [Plain, setBitFn, Stmt.all, stmtPaths, exprPaths, hf, ho, h1]

theorem checkedSetBitFn_plain : Plain (checkedSetBitFn G) := by
  have hf := fieldGuard_paths (G := G) false (r := .ret (.errE errWrite)) rfl
  have ho := fun m => offsetGuard_paths (B := G.B) (r := .ret (.errE m)) rfl
  have h1 := stmtPaths_const _ (setBit_constOk (B := G.B))
  simp [Plain, checkedSetBitFn, Stmt.all, stmtPaths, exprPaths, hf, ho, h1]

theorem getBitFn_plain : Plain (getBitFn G) := by
  have hf := fieldGuard_paths (G := G) true (r := .ret (.bool false)) rfl
  have ho := offsetGuard_paths (B := G.B) (r := .ret (.bool false)) rfl
  have h1 : stmtPaths (bitIndexTok G.B) = [] := by unfold bitIndexTok; split <;> rfl
  have h2 : exprPaths (getBitTok G.B) = [] := by unfold getBitTok; split <;> rfl
  simp [Plain, getBitFn, Stmt.all, stmtPaths, exprPaths, hf, ho, h1, h2]

theorem checkedGetBitFn_plain : Plain (checkedGetBitFn G) := by
  have hf := fieldGuard_paths (G := G) true (r := .ret (.errE errRead)) rfl
  have ho := fun m => offsetGuard_paths (B := G.B) (r := .ret (.errE m)) rfl
  have h1 : stmtPaths (bitIndexTok G.B) = [] := by unfold bitIndexTok; split <;> rfl
  have h2 : exprPaths (getBitTok G.B) = [] := by unfold getBitTok; split <;> rfl
  simp [Plain, checkedGetBitFn, Stmt.all, stmtPaths, exprPaths, hf, ho, h1, h2]

end Guarded

theorem debugFn_plain : Plain (debugFn B) := by
  refine ⟨?_, rfl⟩
  simp only [debugFn, stmtPaths, List.nil_append]
  refine stmtPaths_all fun s hs => ?_
  obtain ⟨f, -, rfl⟩ := List.mem_map.mp hs
  simp [stmtPaths, exprPaths, stmtPaths_const _ (extract_constOk ..)]

theorem defaultFn_plain {G : Gen} (hu : Unboxed G.B) : Plain (defaultFn G) := by
  unfold defaultFn Plain
  cases G.new
  · simp [Stmt.all, stmtPaths, exprPaths, stmtPaths_const _ (init_constOk hu _), stmtPaths_const _ setDefaults_constOk]
  · exact ⟨rfl, rfl⟩

theorem traitConv_paths {e : Expr} {o : Endian} (h : exprPaths e = []) : exprPaths (traitConvTok B e o) = [] := by
  unfold traitConvTok
  split <;> try split
  all_goals simp [exprPaths, stmtPaths, Stmt.all, incr, h]

theorem traitFromFn_plain (hu : Unboxed B) : Plain (traitFromFn B) := by
  have hc := traitConv_paths (B := B) (e := .var (paramTok B)) (o := B.fromEndian) rfl
  simp [Plain, traitFromFn, Stmt.all, stmtPaths, exprPaths, stmtPaths_const _ (init_constOk hu _),
    stmtPaths_const _ (setAll_constOk _), hc]

theorem traitIntoFn_plain (hu : Unboxed B) : Plain (traitIntoFn B) := by
  refine ⟨rfl, traitConv_paths ?_⟩
  cases hB : B.backing with
  | int w => rfl
  | arr n => simp only [innerArr_constOk hu hB]; rfl

theorem featureFns_plain {G : Gen} (hu : Unboxed G.B) (ft : Feature) : ∀ x ∈ featureFns G ft, Plain x.2 := by
  intro x hx
  by_cases hg : G.ignored = false ∧ inherent x.1 = true
  · exact plain_const (featureFns_constOk hg.1 hu ft x hx hg.2)
  cases ft with
  | struct => exact absurd hx (by simp [featureFns])
  | constants => exact absurd hx (by simp [featureFns])
  | fromIntoBits =>
    simp only [featureFns] at hx
    cases hb : G.B.backing <;> rw [hb] at hx <;>
      simp only [List.mem_append, List.mem_flatMap, List.mem_map, List.mem_cons, List.not_mem_nil, or_false] at hx
    · rcases hx with ⟨_, _, rfl | rfl⟩ | ⟨_, _, rfl⟩
      · exact plain_const (from_constOk hu _ _)
      · exact plain_const (from_constOk hu _ _)
      · exact plain_const (into_constOk hu _)
    · rcases hx with ((⟨_, _, rfl | rfl⟩ | ⟨_, _, rfl | rfl | rfl | rfl⟩) | ⟨_, _, rfl⟩) | ⟨_, _, rfl | rfl⟩
      · exact plain_const (from_constOk hu _ _)
      · exact plain_const (from_constOk hu _ _)
      · exact plain_const (fromSlice_constOk hu _ _ _)
      · exact plain_const (fromSlice_constOk hu _ _ _)
      · exact plain_const (checkedFromSlice_constOk hu _ _ _)
      · exact plain_const (checkedFromSlice_constOk hu _ _ _)
      · exact plain_const (into_constOk hu _)
      · exact plain_const (intoSlice_constOk hu hb _)
      · exact plain_const (checkedIntoSlice_constOk hu hb _)
  | _ =>
    simp only [featureFns, List.mem_append, List.mem_flatMap, List.mem_map, List.mem_cons, List.not_mem_nil, or_false] at hx
    first
    | (rcases hx with rfl | rfl <;> first
        | exact plain_const (newFn_constOk hu _) | exact plain_const (clear_constOk hu _)
        | exact traitFromFn_plain hu | exact traitIntoFn_plain hu)
    | (subst hx; first | exact debugFn_plain | exact defaultFn_plain hu)
    | (obtain ⟨_, _, rfl | rfl⟩ := hx <;> first | exact plain_const setter_constOk | exact plain_const checkedSetter_constOk)
    | (obtain ⟨_, _, rfl⟩ := hx; exact plain_const getter_constOk)
    | (rcases hx with ((rfl | rfl | rfl) | ⟨_, _, rfl | rfl⟩) | rfl <;> first
        | exact plain_const (builderNew_constOk hu _) | exact plain_const with_constOk
        | exact plain_const checkedWith_constOk | exact ⟨rfl, rfl⟩)
    | (rcases hx with ⟨_, _, rfl | rfl⟩ | rfl <;> first
        | exact plain_const (write_constOk _ _) | exact plain_const writeDefaults_constOk)
    | (rcases hx with rfl | rfl | rfl | rfl | rfl | rfl | rfl | rfl <;> first
        | exact setBitFn_plain | exact checkedSetBitFn_plain | exact plain_const setRange_constOk
        | exact plain_const checkedSetRange_constOk | exact getBitFn_plain | exact checkedGetBitFn_plain
        | exact plain_const getRange_constOk | exact plain_const checkedGetRange_constOk)
    | (rcases hx with ((rfl | rfl) | ⟨_, _, rfl⟩) | ⟨_, _, rfl⟩ <;> first
        | exact plain_const (clear_constOk hu _) | exact plain_const clearField_constOk
        | exact plain_const clearToDefault_constOk)
    | (rcases hx with (rfl | ⟨_, _, rfl⟩) | ⟨_, _, rfl⟩ <;> first
        | exact plain_const (invert_constOk hu) | exact plain_const invertField_constOk
        | exact plain_const inverted_constOk)

theorem program_core {p : Parsed} (hu : Unboxed p.bitfield) :
    ∀ x ∈ (program p).fns, ∀ q ∈ headPaths x.1 ++ fnPaths x.2, q.InCore := by
  intro x hx q hq
  obtain ⟨ft, -, hm⟩ := List.mem_flatMap.mp hx
  rcases List.mem_append.mp hq with hq | hq
  · exact headPaths_core _ q hq
  · exact fnPaths_plain (featureFns_plain hu ft x hm) q hq

/-! ## All paths are items of the library -/

mutual

theorem exprPaths_box : ∀ e : Expr, ∀ q ∈ exprPaths e, q = ["std", "boxed", "Box", "new"]
  | .boxNew e => by
    intro q hq
    rcases List.mem_cons.mp hq with rfl | hq
    · rfl
    · exact exprPaths_box e q hq
  | .method _ _ e | .not e | .neg e | .cast e _ | .castInfer e | .fromBits _ e | .intoBits e | .swapBytes e
  | .len e | .okE e | .deref e | .contains _ _ e => by simpa only [exprPaths] using exprPaths_box e
  | .bin _ a b | .orElse a b | .andAlso a b | .index a b => by
    intro q hq
    rcases List.mem_append.mp hq with hq | hq
    · exact exprPaths_box a q hq
    · exact exprPaths_box b q hq
  | .ite c a b => by
    intro q hq
    rcases List.mem_append.mp hq with hq | hq
    · rcases List.mem_append.mp hq with hq | hq
      · exact exprPaths_box c q hq
      · exact exprPaths_box a q hq
    · exact exprPaths_box b q hq
  | .block s e => by
    intro q hq
    rcases List.mem_append.mp hq with hq | hq
    · exact stmtPaths_box s q hq
    · exact exprPaths_box e q hq
  | .var _ | .inner _ | .whole _ | .lit _ _ | .bool _ | .user _ _ _ | .const _ _ _ | .maxOf _ | .bitsOf _ | .zeros _
  | .bytes _ | .assoc _ _ | .unit | .errE _ => by intro q hq; cases hq

theorem stmtPaths_box : ∀ s : Stmt, ∀ q ∈ stmtPaths s, q = ["std", "boxed", "Box", "new"]
  | .skip | .letThis | .moveThis _ => by intro q hq; cases hq
  | .seq a b => by
    intro q hq
    rcases List.mem_append.mp hq with hq | hq
    · exact stmtPaths_box a q hq
    · exact stmtPaths_box b q hq
  | .letS _ _ e _ | .initThis _ e _ | .assign _ _ e | .assignInner _ _ e | .expr e | .ret e | .tryS e
  | .debugField _ e => by simpa only [stmtPaths] using exprPaths_box e
  | .assignElem _ i _ e | .assignInnerElem _ i _ e => by
    intro q hq
    rcases List.mem_append.mp hq with hq | hq
    · exact exprPaths_box i q hq
    · exact exprPaths_box e q hq
  | .ite c a b => by
    intro q hq
    rcases List.mem_append.mp hq with hq | hq
    · rcases List.mem_append.mp hq with hq | hq
      · exact exprPaths_box c q hq
      · exact stmtPaths_box a q hq
    · exact stmtPaths_box b q hq
  | .loop c s => by
    intro q hq
    rcases List.mem_append.mp hq with hq | hq
    · exact exprPaths_box c q hq
    · exact stmtPaths_box s q hq
  | .scope s => by simpa only [stmtPaths] using stmtPaths_box s

end

theorem typePaths_result (t : Ty) : ∀ q ∈ typePaths t, q = ["core", "result", "Result"] := by
  induction t with
  | result t ih =>
    intro q hq
    simp only [typePaths, List.mem_cons] at hq
    rcases hq with rfl | hq
    · rfl
    · exact ih q hq
  | _ => intro q hq; cases hq

theorem fnPaths_library {f : Fn} : ∀ q ∈ fnPaths f, q ∈ libraryPaths ∧ (q = ["core", "result", "Result"] ∨
    q = ["std", "boxed", "Box", "new"]) := by
  intro q hq
  have h : q = ["core", "result", "Result"] ∨ q = ["std", "boxed", "Box", "new"] := by
    simp only [fnPaths, List.mem_append, List.mem_flatMap] at hq
    rcases hq with ((⟨x, _, hq⟩ | hq) | hq) | hq
    · exact .inl (typePaths_result _ q hq)
    · exact .inl (typePaths_result _ q hq)
    · exact .inr (stmtPaths_box _ q hq)
    · exact .inr (exprPaths_box _ q hq)
  refine ⟨?_, h⟩
  rcases h with rfl | rfl <;> decide

theorem headPaths_library (t : Tag) : ∀ q ∈ headPaths t, q ∈ libraryPaths := by
  unfold headPaths
  split <;> simp [libraryPaths]

end Bf.Quote
