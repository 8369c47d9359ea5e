import Verif.StackLib
/-!
# The stack library in Rust and AssemblyScript: source language (model)

The generators of the stack library for Rust (`supported-languages/rust/src/generate/instrumentation/mod.rs`) and
AssemblyScript (`supported-languages/assemblyscript/src/generate/instrumentation/mod.rs`) write straight-line source
code: variables, integer literals, calls, `let`/`const`, and, in Rust, the constructors and fields of the union
`WasmValue` and the variants of the enumeration `RuntimeType`. This file gives the syntax of that code, the checks its
compiler makes (names, arities, types), and how it runs. `RustLib` and `AsLib` give the two generators and
the fixed part of each library.

Simplifications: inlining attributes, visibility, comments and white space are left out; a type is the string written; an
integer literal is accepted as `usize` and as `i32`; compilation is assumed to preserve the meaning of programs free of undefined behaviour.
-/

namespace Wastrum

/-- Arguments of calls. -/
inductive SAtom where
  /-- a variable -/
  | var (x : String)
  /-- an integer literal -/
  | int (n : Nat)
  /-- `RuntimeType::v` -/
  | variant (v : String)
  /-- `WasmValue::c(x)` -/
  | new (c x : String)
  deriving DecidableEq, Repr

/-- Expressions. -/
inductive SExpr where
  | atom (a : SAtom)
  /-- `f<ts>(args)` -/
  | call (f : String) (ts : List String) (args : List SAtom)
  /-- `x.fld` -/
  | field (x fld : String)
  deriving DecidableEq, Repr

/-- Statements. -/
inductive SStmt where
  /-- `let x = e;` or `const x = e;` -/
  | bind (x : String) (e : SExpr)
  /-- `e;` -/
  | run (e : SExpr)
  deriving DecidableEq, Repr

/-- A function: whether it is exported (`#[no_mangle] pub extern "C"`, `export`), its name, type parameters,
parameters with types, result type (`"()"` if none), statements, and the expression returned. -/
structure SFn where
  exported : Bool
  name : String
  generics : List String
  params : List (String × String)
  ret : String
  body : List SStmt
  result : Option SExpr
  deriving DecidableEq, Repr

/-- `generate_lib_for` (`rust/src/generate/instrumentation/mod.rs` 681-722 and
`assemblyscript/src/generate/instrumentation/mod.rs` 497-536, which differ only in the functions they call): one loop that emits,
for each signature, the generic functions of its counts if those are new (`cs` are the counts seen) and its own functions if it is new (`ss`). -/
def sourceLoop (generic : Nat → Nat → List SFn) (special : FuncType → List SFn) : List (Nat × Nat) → List FuncType → List FuncType → List SFn
  | _, _, [] => []
  | cs, ss, t :: ts =>
    (if counts t ∈ cs then [] else generic t.results.length t.inputs.length) ++
      (if t ∈ ss then [] else special t) ++ sourceLoop generic special (counts t :: cs) (t :: ss) ts

/-! ## Checks of the compiler -/

/-- The type of a function, with its type parameters. -/
structure SSig where
  generics : List String
  params : List String
  ret : String

/-- The type of a function. -/
def SFn.sig (f : SFn) : SSig := ⟨f.generics, f.params.map Prod.snd, f.ret⟩

/-- The parameter type of a constructor of `WasmValue` of one parameter
(`rust/src/generate/instrumentation/mod.rs` 536-549; `new_func_ref` and `new_extern_ref` have none). -/
def constructorParam : String → Option String
  | "new_i32" => some "i32" | "new_f32" => some "f32" | "new_i64" => some "i64" | "new_f64" => some "f64"
  | _ => none

/-- The fields of `WasmValue` the generated code could name (`rust/src/generate/instrumentation/mod.rs` 518-526), and their types. -/
def fieldType : String → Option String
  | "i32" => some "i32" | "f32" => some "f32" | "i64" => some "i64" | "f64" => some "f64"
  | "ref_type" => some "RefType"
  | _ => none

/-- The variants of `RuntimeType` with their values (`rust/src/generate/instrumentation/mod.rs` 471-481). -/
def variantValue : String → Option Nat
  | "I32" => some 0 | "F32" => some 1 | "I64" => some 2 | "F64" => some 3 | "FuncRef" => some 4 | "ExternRef" => some 5
  | _ => none

/-- Whether an argument can be passed for a parameter of type `ty`. -/
def SAtom.fits (ctx : List (String × String)) (ty : String) : SAtom → Bool
  | .var x => ctx.lookup x == some ty
  | .int _ => ty == "usize" || ty == "i32"
  | .variant v => (variantValue v).isSome && ty == "RuntimeType"
  | .new c x => ty == "WasmValue" && (constructorParam c).isSome && ctx.lookup x == constructorParam c

/-- Arguments fit parameters, one for one. -/
def fitAll (ctx : List (String × String)) : List String → List SAtom → Bool
  | [], [] => true
  | t :: ts, a :: as => a.fits ctx t && fitAll ctx ts as
  | _, _ => false

/-- Substitute type parameters. -/
def substTy (tenv : List (String × String)) (t : String) : String := (tenv.lookup t).getD t

/-- Whether an expression has a type (`want = none`: any type will do). `sigs` gives the functions in scope, `known` the types. -/
def SExpr.checks (known : String → Bool) (sigs : String → Option SSig) (ctx : List (String × String)) (want : Option String) : SExpr → Bool
  | .atom a => match want with
    | some t => a.fits ctx t
    | none => false
  | .call f ts args => match sigs f with
    | none => false
    | some g =>
      ts.length == g.generics.length && ts.all known &&
        fitAll ctx (g.params.map (substTy (g.generics.zip ts))) args &&
        (match want with
          | none => true
          | some t => substTy (g.generics.zip ts) g.ret == t)
  | .field x fld => ctx.lookup x == some "WasmValue" && (match want with
    | none => (fieldType fld).isSome
    | some t => fieldType fld == some t)

/-- Check statements; the context grows by the variables bound. Variables are bound to pointers and values only:
a call (whose result type is taken from its declaration). -/
def checkStmts (known : String → Bool) (sigs : String → Option SSig) : List SStmt → List (String × String) → Option (List (String × String))
  | [], ctx => some ctx
  | .bind x (.call f ts args) :: l, ctx =>
    if SExpr.checks known sigs ctx none (.call f ts args) then
      match sigs f with
      | some g => checkStmts known sigs l ((x, substTy (g.generics.zip ts) g.ret) :: ctx)
      | none => none
    else none
  | .bind _ _ :: _, _ => none
  | .run e :: l, ctx => if e.checks known sigs ctx none then checkStmts known sigs l ctx else none

/-- Whether a function passes: parameters of known types and different names, statements and result of the right types. -/
def SFn.checks (known : String → Bool) (sigs : String → Option SSig) (f : SFn) : Bool :=
  let known' := fun t => known t || f.generics.contains t
  f.params.all (fun p => known' p.2) && decide (f.params.map Prod.fst).Nodup && (f.ret == "()" || known' f.ret) &&
    (match checkStmts known' sigs f.body f.params with
      | none => false
      | some ctx => match f.result with
        | none => f.ret == "()"
        | some e => e.checks known' sigs ctx (some f.ret))

/-- The functions in scope: the fixed ones (`prims`) and those of the program. -/
def scope (prims : String → Option SSig) (fs : List SFn) (name : String) : Option SSig :=
  match prims name with
  | some g => some g
  | none => (fs.find? fun f => f.name == name).map SFn.sig

/-- Whether a program compiles: no two functions have the same name, no function has the name of a fixed one, and every function passes. -/
def compiles (known : String → Bool) (prims : String → Option SSig) (fs : List SFn) : Prop :=
  (fs.map SFn.name).Nodup ∧ (∀ f ∈ fs, prims f.name = none) ∧ ∀ f ∈ fs, f.checks known (scope prims fs) = true

/-! ## Running -/

/-- Values: nothing, a number (`usize` being `i32` on this target), or a `WasmValue` of whose eight bytes the low `w` are
initialised, with the number they hold. -/
inductive SVal where
  | unit
  | num (v : Val)
  | union (x w : Nat)
  deriving DecidableEq, Repr

/-- What running gives: a result, a trap, undefined behaviour, or nothing because the program is ill-formed. -/
inductive SRes (σ α : Type) where
  | ok (a : α) (s : σ)
  | trap (s : σ)
  | ub
  | stuck

/-- `WasmValue::new_..` (`rust/src/generate/instrumentation/mod.rs` 536-549). -/
def construct : String → SVal → Option SVal
  | "new_i32", .num (.i32 v) => some (.union v.toNat 4)
  | "new_f32", .num (.f32 v) => some (.union v.toNat 4)
  | "new_i64", .num (.i64 v) => some (.union v.toNat 8)
  | "new_f64", .num (.f64 v) => some (.union v.toNat 8)
  | _, _ => none

/-- Reading a field of a `WasmValue`; reading bytes that were not initialised is undefined behaviour. -/
def project {σ : Type} (fld : String) (v : SVal) (s : σ) : SRes σ SVal :=
  match fld, v with
  | "i32", .union x _ => .ok (.num (.i32 (BitVec.ofNat 32 x))) s
  | "f32", .union x _ => .ok (.num (.f32 (BitVec.ofNat 32 x))) s
  | "i64", .union x w => if w = 8 then .ok (.num (.i64 (BitVec.ofNat 64 x))) s else .ub
  | "f64", .union x w => if w = 8 then .ok (.num (.f64 (BitVec.ofNat 64 x))) s else .ub
  | _, _ => .stuck

/-- The value of an argument. -/
def SAtom.eval (env : List (String × SVal)) : SAtom → Option SVal
  | .var x => env.lookup x
  | .int n => some (.num (.i32 (BitVec.ofNat 32 n)))
  | .variant v => (variantValue v).map fun n => .num (.i32 (BitVec.ofNat 32 n))
  | .new c x => (env.lookup x).bind (construct c)

/-- The values of arguments. -/
def evalAtoms (env : List (String × SVal)) : List SAtom → Option (List SVal)
  | [] => some []
  | a :: as => match a.eval env, evalAtoms env as with
    | some v, some vs => some (v :: vs)
    | _, _ => none

/-- How calls behave. -/
abbrev SCall (σ : Type) := String → List String → List SVal → σ → SRes σ SVal

/-- The value of an expression. `tenv` gives the type parameters. -/
def SExpr.eval {σ : Type} (call : SCall σ) (tenv : List (String × String)) (env : List (String × SVal)) (s : σ) : SExpr → SRes σ SVal
  | .atom a => match a.eval env with
    | some v => .ok v s
    | none => .stuck
  | .call f ts args => match evalAtoms env args with
    | some vs => call f (ts.map (substTy tenv)) vs s
    | none => .stuck
  | .field x fld => match env.lookup x with
    | some v => project fld v s
    | none => .stuck

/-- Run statements; variables bound are added to the environment. -/
def runStmts {σ : Type} (call : SCall σ) (tenv : List (String × String)) : List SStmt → List (String × SVal) → σ → SRes σ (List (String × SVal))
  | [], env, s => .ok env s
  | .bind x e :: l, env, s => match e.eval call tenv env s with
    | .ok v s => runStmts call tenv l ((x, v) :: env) s
    | .trap s => .trap s
    | .ub => .ub
    | .stuck => .stuck
  | .run e :: l, env, s => match e.eval call tenv env s with
    | .ok _ s => runStmts call tenv l env s
    | .trap s => .trap s
    | .ub => .ub
    | .stuck => .stuck

/-- Run a function. -/
def SFn.run {σ : Type} (call : SCall σ) (f : SFn) (ts : List String) (args : List SVal) (s : σ) : SRes σ SVal :=
  if ts.length = f.generics.length ∧ args.length = f.params.length then
    match runStmts call (f.generics.zip ts) f.body ((f.params.map Prod.fst).zip args) s with
    | .ok env s => match f.result with
      | none => .ok .unit s
      | some e => e.eval call (f.generics.zip ts) env s
    | .trap s => .trap s
    | .ub => .ub
    | .stuck => .stuck
  else .stuck

/-- Calls of the fixed functions (`prim`) and of those of the program, at most `d` deep. -/
def srcCall {σ : Type} (prim : String → List String → List SVal → σ → Option (SRes σ SVal)) (fs : List SFn) : Nat → SCall σ
  | 0 => fun _ _ _ _ => .stuck
  | d + 1 => fun name ts args s => match prim name ts args s with
    | some r => r
    | none => match fs.find? fun f => f.name == name with
      | some f => f.run (srcCall prim fs d) ts args s
      | none => .stuck

/-- The wasm type of a type of the source (`usize` is 32 bits wide on the target). -/
def wasmTypeOf : String → Option ValType
  | "usize" => some .i32 | "i32" => some .i32 | "i64" => some .i64 | "f32" => some .f32 | "f64" => some .f64
  | _ => none

/-- The wasm type of an exported function. -/
def SFn.wasmType (f : SFn) : Option FuncType :=
  match f.params.mapM fun p => wasmTypeOf p.2 with
  | none => none
  | some ps => if f.ret = "()" then some ⟨ps, []⟩ else (wasmTypeOf f.ret).map fun r => ⟨ps, [r]⟩

/-- Calling an exported function of the compiled library with numbers. -/
def exportCall {σ : Type} (prim : String → List String → List SVal → σ → Option (SRes σ SVal)) (fs : List SFn) (d : Nat) (name : String) (args : List Val) (s : σ) :
    SRes σ SVal :=
  match fs.find? fun f => f.exported && f.name == name with
  | some f => f.run (srcCall prim fs d) [] (args.map .num) s
  | none => .stuck

end Wastrum
