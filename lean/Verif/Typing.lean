import Verif.OpTypes
import Verif.Instrument
import Verif.Expand
/-!
# Which code is valid (specification)

The typing rules of the WebAssembly core specification for the instructions that occur in `/repo`, in declarative
form on nested code. Nothing here models code in `/repo` (the type checker the tool uses is part of `wasabi_wasm`);
validity is a notion in which properties of the tool are stated.

Lists of types describe the operand stack, **top first**. Code after an unconditional branch has every type, as in the
specification. Alignment hints are ignored.
-/

namespace Wastrum

/-- What code may refer to. `globals` says whether a global is mutable; `labels` and `ret` are the types (top first) that
a branch to a label and a return deliver. -/
structure Ctx where
  ftype : Nat → Option FuncType
  globals : List (ValType × Bool)
  tables : List RefType
  mems : Nat
  datas : Nat
  elems : List RefType
  locals : List ValType
  labels : List (List ValType)
  ret : List ValType

/-- Inside one more block. -/
def Ctx.label (Γ : Ctx) (l : List ValType) : Ctx := { Γ with labels := l :: Γ.labels }

/-- From stack `a`, pop `ins` and push `outs` to get `c` (all top first). -/
def Pops (ins outs a c : List ValType) : Prop := ∃ r, a = ins ++ r ∧ c = outs ++ r

/-- Instruction `b` takes a stack of type `a` to one of type `c`. -/
def BTyped (Γ : Ctx) (b : Basic) (a c : List ValType) : Prop :=
  match b with
  | .unreachable => True
  | .nop => Pops [] [] a c
  | .br l => ∃ lt, Γ.labels[l]? = some lt ∧ ∃ r, a = lt ++ r
  | .brIf l => ∃ lt, Γ.labels[l]? = some lt ∧ Pops (.i32 :: lt) lt a c
  | .brTable ls d => ∀ l ∈ d :: ls, ∃ lt, Γ.labels[l]? = some lt ∧ ∃ r, a = .i32 :: lt ++ r
  | .ret => ∃ r, a = Γ.ret ++ r
  | .call f => ∃ ty, Γ.ftype f = some ty ∧ Pops ty.inputs.reverse ty.results.reverse a c
  | .callIndirect ty tbl => Γ.tables[tbl]? = some .funcRef ∧ Pops (.i32 :: ty.inputs.reverse) ty.results.reverse a c
  | .refNull r => Pops [] [.ref r] a c
  | .refIsNull => ∃ r, Pops [.ref r] [.i32] a c
  | .refFunc f => (∃ ty, Γ.ftype f = some ty) ∧ Pops [] [.ref .funcRef] a c
  | .drop => ∃ t, Pops [t] [] a c
  | .select => ∃ t, (∀ r, t ≠ .ref r) ∧ Pops [.i32, t, t] [t] a c
  | .typedSelect t => Pops [.i32, t, t] [t] a c
  | .loc .get i => ∃ t, Γ.locals[i]? = some t ∧ Pops [] [t] a c
  | .loc .set i => ∃ t, Γ.locals[i]? = some t ∧ Pops [t] [] a c
  | .loc .tee i => ∃ t, Γ.locals[i]? = some t ∧ Pops [t] [t] a c
  | .glob .get i => ∃ t mu, Γ.globals[i]? = some (t, mu) ∧ Pops [] [t] a c
  | .glob .set i => ∃ t, Γ.globals[i]? = some (t, true) ∧ Pops [t] [] a c
  | .tableGet i => ∃ r, Γ.tables[i]? = some r ∧ Pops [.i32] [.ref r] a c
  | .tableSet i => ∃ r, Γ.tables[i]? = some r ∧ Pops [.ref r, .i32] [] a c
  | .tableSize i => (∃ r, Γ.tables[i]? = some r) ∧ Pops [] [.i32] a c
  | .tableGrow i => ∃ r, Γ.tables[i]? = some r ∧ Pops [.i32, .ref r] [.i32] a c
  | .tableFill i => ∃ r, Γ.tables[i]? = some r ∧ Pops [.i32, .ref r, .i32] [] a c
  | .tableCopy i j => ∃ r, Γ.tables[i]? = some r ∧ Γ.tables[j]? = some r ∧ Pops [.i32, .i32, .i32] [] a c
  | .tableInit i e => ∃ r, Γ.tables[i]? = some r ∧ Γ.elems[e]? = some r ∧ Pops [.i32, .i32, .i32] [] a c
  | .elemDrop e => e < Γ.elems.length ∧ Pops [] [] a c
  | .load op _ => 0 < Γ.mems ∧ Pops [.i32] [op.ty] a c
  | .store op _ => 0 < Γ.mems ∧ Pops [op.ty, .i32] [] a c
  | .memorySize i => i < Γ.mems ∧ Pops [] [.i32] a c
  | .memoryGrow i => i < Γ.mems ∧ Pops [.i32] [.i32] a c
  | .memoryFill => 0 < Γ.mems ∧ Pops [.i32, .i32, .i32] [] a c
  | .memoryCopy => 0 < Γ.mems ∧ Pops [.i32, .i32, .i32] [] a c
  | .memoryInit x => 0 < Γ.mems ∧ x < Γ.datas ∧ Pops [.i32, .i32, .i32] [] a c
  | .dataDrop x => x < Γ.datas ∧ Pops [] [] a c
  | .const v => Pops [] [v.type] a c
  | .unary op => Pops [op.sig.1] [op.sig.2] a c
  | .binary op => Pops [op.sig.1, op.sig.1] [op.sig.2] a c

mutual
/-- Typing of a nested instruction. -/
inductive HTyI : Ctx → HI → List ValType → List ValType → Prop where
  | basic {Γ b a c} : BTyped Γ b a c → HTyI Γ (.basic b) a c
  | block {Γ t body r} : HTyL (Γ.label t.results.reverse) body t.inputs.reverse t.results.reverse →
      HTyI Γ (.block t body) (t.inputs.reverse ++ r) (t.results.reverse ++ r)
  | loop {Γ t body r} : HTyL (Γ.label t.inputs.reverse) body t.inputs.reverse t.results.reverse →
      HTyI Γ (.loop t body) (t.inputs.reverse ++ r) (t.results.reverse ++ r)
  | ifThen {Γ t thn r} : t.inputs = t.results → HTyL (Γ.label t.results.reverse) thn t.inputs.reverse t.results.reverse →
      HTyI Γ (.ifThen t thn) (.i32 :: t.inputs.reverse ++ r) (t.results.reverse ++ r)
  | ifElse {Γ t thn els r} : HTyL (Γ.label t.results.reverse) thn t.inputs.reverse t.results.reverse →
      HTyL (Γ.label t.results.reverse) els t.inputs.reverse t.results.reverse →
      HTyI Γ (.ifElse t thn els) (.i32 :: t.inputs.reverse ++ r) (t.results.reverse ++ r)
/-- Typing of a body. -/
inductive HTyL : Ctx → List HI → List ValType → List ValType → Prop where
  | nil {Γ a} : HTyL Γ [] a a
  | cons {Γ i l a b c} : HTyI Γ i a b → HTyL Γ l b c → HTyL Γ (i :: l) a c
end

/-- The annotation the type checker put on an access to a local or global is right: if it says which type is read or
written, that is the type of the local or global. -/
def AnnotOK (Γ : Ctx) (m : Meta) (b : Basic) : Prop :=
  match b with
  | .loc .get i => ∀ t, m.ty.reads = some t → Γ.locals[i]? = some t
  | .loc .set i => ∀ t, m.ty.writes = some t → Γ.locals[i]? = some t
  | .loc .tee i => ∀ t, m.ty.tees = some t → Γ.locals[i]? = some t
  | .glob .get i => ∀ t, m.ty.reads = some t → (Γ.globals[i]?).map (·.1) = some t
  | .glob .set i => ∀ t, m.ty.writes = some t → (Γ.globals[i]?).map (·.1) = some t
  | _ => True

mutual
/-- Typing of an annotated instruction: it is typed and its annotations are right. -/
inductive TTyI : Ctx → TI → List ValType → List ValType → Prop where
  | basic {Γ m b a c} : BTyped Γ b a c → AnnotOK Γ m b → TTyI Γ (.basic m b) a c
  | block {Γ m t body r} : TTyL (Γ.label t.results.reverse) body t.inputs.reverse t.results.reverse →
      TTyI Γ (.block m t body) (t.inputs.reverse ++ r) (t.results.reverse ++ r)
  | loop {Γ m t body r} : TTyL (Γ.label t.inputs.reverse) body t.inputs.reverse t.results.reverse →
      TTyI Γ (.loop m t body) (t.inputs.reverse ++ r) (t.results.reverse ++ r)
  | ifThen {Γ m t thn r} : t.inputs = t.results → TTyL (Γ.label t.results.reverse) thn t.inputs.reverse t.results.reverse →
      TTyI Γ (.ifThen m t thn) (.i32 :: t.inputs.reverse ++ r) (t.results.reverse ++ r)
  | ifElse {Γ m t thn els r} : TTyL (Γ.label t.results.reverse) thn t.inputs.reverse t.results.reverse →
      TTyL (Γ.label t.results.reverse) els t.inputs.reverse t.results.reverse →
      TTyI Γ (.ifElse m t thn els) (.i32 :: t.inputs.reverse ++ r) (t.results.reverse ++ r)
/-- Typing of an annotated body. -/
inductive TTyL : Ctx → List TI → List ValType → List ValType → Prop where
  | nil {Γ a} : TTyL Γ [] a a
  | cons {Γ i l a b c} : TTyI Γ i a b → TTyL Γ l b c → TTyL Γ (i :: l) a c
end

/-! ## Modules -/

/-- What the code of a module may refer to, apart from locals and labels. -/
def Module.ctx (m : Module) : Ctx where
  ftype i := m.functions[i]?.map (·.type)
  globals := m.globals.map fun g => (g.type, g.mutbl)
  tables := m.tables.map (·.ref)
  mems := m.memories.length
  datas := m.datas.length
  elems := m.elements.map (·.ref)
  locals := []
  labels := []
  ret := []

/-- The context of the body of a function: parameters and locals; the outermost label and `return` deliver the results. -/
def Ctx.body (Γ : Ctx) (ty : FuncType) (locals : List ValType) : Ctx :=
  { Γ with locals := ty.inputs ++ locals, labels := [ty.results.reverse], ret := ty.results.reverse }

/-- A flat body is valid: it is well bracketed and its nested form is typed. -/
def ValidBody (Γ : Ctx) (ty : FuncType) (c : Code) : Prop :=
  ∃ b, raise c.body = .ok b ∧ HTyL (Γ.body ty c.locals) b [] ty.results.reverse

/-- A function is valid: imported, or its body is. -/
def ValidFunc (Γ : Ctx) (f : Func) : Prop := ∀ c, f.code = .present c → ValidBody Γ f.type c

/-- An element segment refers to existing functions and to a table of its type. -/
def ValidElement (Γ : Ctx) (e : Element) : Prop :=
  (∀ is ∈ e.init, ∀ f, .refFunc f ∈ is → ∃ ty, Γ.ftype f = some ty) ∧
  (∀ tbl off, e.mode = .active tbl off → Γ.tables[tbl]? = some e.ref)

/-- All names a module exports. -/
def Module.exportNames (m : Module) : List String :=
  m.functions.flatMap (·.exports) ++ m.tables.flatMap (·.exports) ++ m.memories.flatMap (·.exports) ++ m.globals.flatMap (·.exports)

/-- A module is valid as far as its functions, element segments, start function and exports are concerned. (Memories,
globals and data segments the tool leaves as they are, C43; it adds a table, which is always valid.) -/
structure ValidModule (m : Module) : Prop where
  functions : ∀ f ∈ m.functions, ValidFunc m.ctx f
  elements : ∀ e ∈ m.elements, ValidElement m.ctx e
  start : ∀ i, m.start = some i → m.ctx.ftype i = some ⟨[], []⟩
  exports : m.exportNames.Nodup

/-- The type checker did its job on a target: the annotated body it yields is typed and its annotations are right. -/
def WellAnnotated (m : Module) (f : Func) (b : List TI) : Prop :=
  ∀ c, f.code = .present c → TTyL (m.ctx.body f.type c.locals) b [] f.type.results.reverse

end Wastrum
