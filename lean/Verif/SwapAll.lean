import Verif.SwapThms
import Verif.Watch
import Verif.ExHeap
/-!
# Analyses that perform other operations, memory accesses included (C89)

The library performs loads and stores by calling functions exported by the instrumented program (`ShippedForward.lean`), at the sum of address and offset; with offset zero that is the address.
-/

set_option linter.unusedSimpArgs false
set_option linter.unusedVariables false

namespace Wastrum

variable {W A : Type}

/-- The operations to perform in place of those handed over, by operator and location. -/
structure Choices where
  unary : UnaryOp → Location → UnaryOp
  binary : BinaryOp → Location → BinaryOp
  load : LoadOp → Location → LoadOp
  store : StoreOp → Location → StoreOp

/-- The chosen operations have the types of those handed over. -/
structure Choices.Typed (c : Choices) : Prop where
  unary : ∀ op l, (c.unary op l).sig = op.sig
  binary : ∀ op l, (c.binary op l).sig = op.sig
  load : ∀ op l, (c.load op l).ty = op.ty
  store : ∀ op l, (c.store op l).ty = op.ty

/-- The advice with the chosen operation in place of the one handed over. -/
def Choices.advice (c : Choices) : Advice → Advice
  | .unary op x l => .unary (c.unary op l) x l
  | .binary op x y l => .binary (c.binary op l) x y l
  | .load i o op l => .load i o (c.load op l) l
  | .store i v o op l => .store i v o (c.store op l) l
  | a => a

/-- Advice of a user of the library: `unary`, `binary`, `load` and `store` perform the chosen operation with `apply` and `perform` of the library; any other advice is the forwarding analysis'
(`forward/src/lib.rs` 14-271, where the chosen operation is the one handed over). -/
def choosingBody (N : Num) (c : Choices) (base : String → Option Nat) (a : Advice) (call : Nat → List RVal → Store W → Res W) (s : Store W) : Res W :=
  forwardBody N base (c.advice a) call s

/-- **Specification.** The chosen instruction for an instruction at a location. (A chosen load or store has the offset of the one it stands for and its own natural alignment, which has no effect.) -/
def Choices.instead (c : Choices) (l : Location) : Basic → Basic
  | .unary op => .unary (c.unary op l)
  | .binary op => .binary (c.binary op l)
  | .load op ma => .load (c.load op l) ⟨ma.offset, (c.load op l).alignExp⟩
  | .store op ma => .store (c.store op l) ⟨ma.offset, (c.store op l).alignExp⟩
  | b => b

/-- **Specification.** The replaced instructions: the operations for which there is a hook. -/
def Choices.replaced (iface : Interface) (c : Choices) : Swap := fun f i b =>
  match delegation b with
  | some (t, _, _) => if (iface.trap t).isSome then c.instead (.new (.ofNat 64 f) (.ofNat 64 i)) b else b
  | none => b

theorem Choices.replaced_pos {iface : Interface} {c : Choices} {f i : Nat} {b : Basic} {t k info} (hd : delegation b = some (t, k, info)) (ht : (iface.trap t).isSome) :
    c.replaced iface f i b = c.instead (.new (.ofNat 64 f) (.ofNat 64 i)) b := by
  simp only [Choices.replaced, hd, ht, if_true]

theorem Choices.instead_swaps {c : Choices} (hc : c.Typed) (l : Location) (b : Basic) : Swappable b (c.instead l b) := by
  cases b
  case unary op => exact .unary (hc.unary _ _).symm
  case binary op => exact .binary (hc.binary _ _).symm
  case load op ma => exact .load _ _ (hc.load _ _).symm
  case store op ma => exact .store _ _ (hc.store _ _).symm
  all_goals exact .same _

theorem Choices.replaced_swaps {iface : Interface} {c : Choices} (hc : c.Typed) (f i : Nat) (b : Basic) : Swappable b (c.replaced iface f i b) := by
  unfold Choices.replaced
  split
  · split
    · exact Choices.instead_swaps hc _ b
    · exact .same _
  · exact .same _

/-- The hooks that are shown operands return them. -/
theorem choosing_shown {N : Num} {base : String → Option Nat} {c : Choices} {t : Trap} (ht : t.performs = false) (call) (args : List RVal) (s : Store W)
    (h : args.map RVal.type = t.args) : stdHook (choosingBody N c base) t call args s = .ok (args.take t.results.length) s := by
  have vals : ∀ v : RVal, (∀ r, v.type ≠ .ref r) → ∃ x, v = .num x := by
    intro v hv
    cases v with
    | num x => exact ⟨x, rfl⟩
    | ref r a => exact absurd rfl (hv r)
  cases t <;> first | (cases ht; done) | skip
  all_goals
    simp only [Trap.args] at h
    repeat
      replace h := map_type_cons h
      obtain ⟨v, _, rfl, hv, h⟩ := h
      obtain ⟨v, rfl⟩ := vals v (by rw [hv]; intro r; simp)
      cases v <;> first | (cases hv; done) | skip
    cases map_type_nil h
    rfl

/-- The advice for the replaced instruction. -/
theorem choosing_entry {iface : Interface} {c : Choices} (hc : c.Typed) {b : Basic} {t k info} (hd : delegation b = some (t, k, info)) (ht : (iface.trap t).isSome) {f i : Nat} {ops : List RVal}
    (hk : ops.length = k) (hty : (ops ++ info ++ [nI64 f, nI64 i]).map RVal.type = t.args) :
    ∃ info' a, delegation (c.replaced iface f i b) = some (t, k, info') ∧ info'.map RVal.type = info.map RVal.type ∧
      stdEntry t (ops ++ info ++ [nI64 f, nI64 i]) = some a ∧ stdEntry t (ops ++ info' ++ [nI64 f, nI64 i]) = some (c.advice a) := by
  rw [Choices.replaced_pos hd ht]
  unfold Choices.instead
  cases b <;> try (simp [delegation] at hd; done)
  case unary op =>
    simp only [delegation, Option.map_eq_some_iff, Prod.mk.injEq] at hd
    obtain ⟨t, ht', rfl, rfl, rfl⟩ := hd
    obtain ⟨v, rfl⟩ : ∃ v, ops = [v] := by match ops, hk with | [v], _ => exact ⟨v, rfl⟩
    rw [(unaryTrap_args ht').1] at hty
    simp only [List.cons_append, List.nil_append, List.map_cons, List.map_nil, List.cons.injEq, and_true] at hty
    obtain ⟨v, rfl, hvn⟩ := RVal.type_num hty.1 op.sig_num
    refine ⟨[.i32 (c.unary op (.new (.ofNat 64 f) (.ofNat 64 i))).serialize], .unary op v (.new (.ofNat 64 f) (.ofNat 64 i)), by simp only [delegation, hc.unary, ht', Option.map_some], rfl, ?_, ?_⟩
    · simp only [List.cons_append, List.nil_append, nI64]
      rw [stdEntry_unary ht' hvn, (C17_unary_codes _ op).2 rfl]; rfl
    · simp only [List.cons_append, List.nil_append, nI64]
      rw [stdEntry_unary ht' hvn, (C17_unary_codes _ _).2 rfl]; rfl
  case binary op =>
    simp only [delegation, Option.map_eq_some_iff, Prod.mk.injEq] at hd
    obtain ⟨t, ht', rfl, rfl, rfl⟩ := hd
    obtain ⟨v, w, rfl⟩ : ∃ v w, ops = [v, w] := by match ops, hk with | [v, w], _ => exact ⟨v, w, rfl⟩
    rw [(binaryTrap_args ht').1] at hty
    simp only [List.cons_append, List.nil_append, List.map_cons, List.map_nil, List.cons.injEq, and_true] at hty
    obtain ⟨v, rfl, hvn⟩ := RVal.type_num hty.1 op.sig_num
    obtain ⟨w, rfl, hwn⟩ := RVal.type_num hty.2.1 op.sig_num
    refine ⟨[.i32 (c.binary op (.new (.ofNat 64 f) (.ofNat 64 i))).serialize], .binary op v w (.new (.ofNat 64 f) (.ofNat 64 i)), by simp only [delegation, hc.binary, ht', Option.map_some], rfl, ?_, ?_⟩
    · simp only [List.cons_append, List.nil_append, nI64]
      rw [stdEntry_binary ht' hvn hwn, (C17_binary_codes _ op).2 rfl]; rfl
    · simp only [List.cons_append, List.nil_append, nI64]
      rw [stdEntry_binary ht' hvn hwn, (C17_binary_codes _ _).2 rfl]; rfl
  case load op ma =>
    simp only [delegation, Option.map_eq_some_iff, Prod.mk.injEq] at hd
    obtain ⟨t, ht', rfl, rfl, rfl⟩ := hd
    obtain ⟨v, rfl⟩ : ∃ v, ops = [v] := by match ops, hk with | [v], _ => exact ⟨v, rfl⟩
    rw [(loadTrap_args ht').1] at hty
    simp only [List.cons_append, List.nil_append, List.map_cons, List.map_nil, List.cons.injEq, and_true] at hty
    obtain ⟨x, rfl⟩ := RVal.of_i32 hty.1
    refine ⟨[.i64 (ma.offset.setWidth 64), .i32 (c.load op (.new (.ofNat 64 f) (.ofNat 64 i))).serialize], .load x (ma.offset.setWidth 64) op (.new (.ofNat 64 f) (.ofNat 64 i)), by simp only [delegation, hc.load, ht', Option.map_some], rfl, ?_, ?_⟩
    · simp only [List.cons_append, List.nil_append, nI64]
      rw [stdEntry_load ht', (C17_load_codes _ op).2 rfl]; rfl
    · simp only [List.cons_append, List.nil_append, nI64]
      rw [stdEntry_load ht', (C17_load_codes _ _).2 rfl]; rfl
  case store op ma =>
    simp only [delegation, Option.map_eq_some_iff, Prod.mk.injEq] at hd
    obtain ⟨t, ht', rfl, rfl, rfl⟩ := hd
    obtain ⟨a, v, rfl⟩ : ∃ v w, ops = [v, w] := by match ops, hk with | [v, w], _ => exact ⟨v, w, rfl⟩
    rw [(storeTrap_args ht').1] at hty
    simp only [List.cons_append, List.nil_append, List.map_cons, List.map_nil, List.cons.injEq, and_true] at hty
    obtain ⟨x, rfl⟩ := RVal.of_i32 hty.1
    obtain ⟨v, rfl, hvn⟩ := RVal.type_num hty.2.1 op.ty_num
    refine ⟨[.i64 (ma.offset.setWidth 64), .i32 (c.store op (.new (.ofNat 64 f) (.ofNat 64 i))).serialize], .store x v (ma.offset.setWidth 64) op (.new (.ofNat 64 f) (.ofNat 64 i)), by simp only [delegation, hc.store, ht', Option.map_some], rfl, ?_, ?_⟩
    · simp only [List.cons_append, List.nil_append, nI64]
      rw [stdEntry_store ht' hvn, (C17_store_codes _ op).2 rfl]; rfl
    · simp only [List.cons_append, List.nil_append, nI64]
      rw [stdEntry_store ht' hvn, (C17_store_codes _ _).2 rfl]; rfl
  case memoryGrow n =>
    obtain ⟨a, ha⟩ := stdEntry_delegation (b := .memoryGrow n) hd hk (loc := [nI64 f, nI64 i]) rfl hty
    refine ⟨_, a, hd, rfl, ha, ?_⟩
    simp only [delegation, Option.some.injEq, Prod.mk.injEq] at hd
    obtain ⟨rfl, rfl, rfl⟩ := hd
    obtain ⟨v, rfl⟩ : ∃ v, ops = [v] := by match ops, hk with | [v], _ => exact ⟨v, rfl⟩
    simp only [Trap.args, List.cons_append, List.nil_append, List.map_cons, List.map_nil, List.cons.injEq, and_true] at hty
    obtain ⟨x, rfl⟩ := RVal.of_i32 hty.1
    rw [ha]
    simp only [List.cons_append, List.nil_append, nI64] at ha
    cases ha
    rfl

/-- The hooks of such an analysis do what the replaced instructions do, where offsets are zero; where they are below 2^31, unless those trap. -/
theorem C89_library_rewrites_all {m : Module} (hm1 : m.memories.length ≤ 1) {iface : Interface} (hst : iface.Documented) {N : Num} {base : String → Option Nat} {c : Choices} (hc : c.Typed)
    {H : Imports (W × A)} (hL : LinkedTo iface (choosingBody N c base) H) (exact mo : Bool) :
    RewritesFor N iface .nothing (c.replaced iface) (fun _ _ a a' => a' = a) (BaseCalls N base (!m.memories.isEmpty) mo)
      (fun b => OffsetsAre iface (fun o => o.toNat < 2 ^ 31 ∧ (exact = true → o = 0)) b ∧ m.ctx.HasMem b) (!exact) mo H := by
  have hH : ∀ t e, iface.trap t = some e → H "WASTRUMENTATION_ANALYSIS" e.name = stdHook (choosingBody N c base) t := by
    intro t e he
    have hnm := hL t (by rw [he]; rfl)
    rw [C49_library_exports_what_is_imported] at hnm
    rw [hst t e he]
    exact hnm
  refine ⟨⟨fun _ _ _ _ => rfl, fun _ _ => .inl rfl⟩, fun _ _ _ _ => rfl, Choices.replaced_swaps hc, ?_, ?_, ?_⟩
  · intro f i b h
    unfold Choices.replaced
    split
    · rename_i t k info hd
      rw [h t k info hd]; rfl
    · rfl
  · intro t e he ho call operands info f i s a hto hty
    refine ⟨operands, a, computes_nil N _, hto, rfl, ?_⟩
    rw [hH t e he, choosing_shown (Trap.not_performs ho) call _ _ hty]
    have : t.results.length = operands.length := by rw [← hto, List.length_map]
    rw [this, List.append_assoc, List.take_left]
  · intro t e he b k info hd hB call hcall ops f i s a hk hty hbd
    have ht : (iface.trap t).isSome := by rw [he]; rfl
    obtain ⟨info', adv, hd', hinfo, ha, ha'⟩ := choosing_entry hc hd ht hk hty
    have hty' : (ops ++ info' ++ [nI64 f, nI64 i]).map RVal.type = t.args := by
      rw [← hty]; simp only [List.map_append, hinfo]
    have same : stdHook (choosingBody N c base) t call (ops ++ info ++ [nI64 f, nI64 i]) (s.withAnalysis a) =
        stdHook (forwardBody N base) t call (ops ++ info' ++ [nI64 f, nI64 i]) (s.withAnalysis a) := by
      unfold stdHook
      rw [ha, ha']
      rfl
    have hoff : OffsetsAre iface (fun o => o.toNat < 2 ^ 31 ∧ (exact = true → o = 0)) (c.replaced iface f i b) := by
      have h0 := hB.1 t k info hd ht
      intro _ _ _ _ _
      rw [Choices.replaced_pos hd ht]
      cases b <;> unfold Choices.instead <;> first
        | trivial
        | exact h0
    have hex := execute_withAnalysis (N := N) hd' ops s a
    rw [hH t e he, same]
    rcases forward_performed hm1 ht hd' ⟨hoff, (Choices.replaced_swaps hc f i b).hasMem hB.2⟩ hcall hk rfl hty' (s := s.withAnalysis a) hbd with ⟨h1, s1, h2⟩ | h1 | h1
    · refine .inl ⟨by simp [h1], ?_⟩
      rw [hex] at h2
      cases hx : execute N (c.replaced iface f i b) ops s with
      | trap s2 => exact ⟨s2, rfl⟩
      | _ => rw [hx] at h2; cases h2
    · exact .inr (.inl h1)
    · exact .inr (.inr ⟨a, rfl, h1.trans hex⟩)

/-- **C89 (analyses written with the Rust library, memory accesses included).** Let an analysis' `unary`, `binary`, `load` and `store` advice perform an operation chosen from the operator and the location,
with the same types as the one handed. If the loads and stores handed to the analysis have offset zero (see the next theorem for other offsets), the instrumented program behaves exactly like the program in which
the hooked operations of the targets have been replaced by the chosen ones: same results, same traps, same program states, and it runs forever in one iff in the other. -/
theorem C89_library_rewrites_memory_accesses {C iface ts m r} (hs : SmallModule m) (hst : iface.Documented) (hg : iface.generic = none)
    (h : Instruments C iface ts m r) (hvm : ValidModule m)
    (hB : ∀ i ∈ bodyTargets m ts, ∀ f, m.functions[i]? = some f → WellAnnotated m f (bodyOf C m i)) (hres : ∀ name ∈ iface.toolExports, name ∉ m.exportNames)
    (hO : ∀ i ∈ bodyTargets m ts, ∀ f c, m.functions[i]? = some f → f.code = .present c → OnlyCode (OffsetsAre iface fun o => o = 0) c.body)
    {N : Num} {c : Choices} (hc : c.Typed) {H : Imports W} {H' : Imports (W × A)}
    (hL : LinkedTo iface (choosingBody N c r.module.exported) H') (hI : ImportsAgree m (fun w (p : W × A) => w = p.1) H H')
    {f : Nat} {ty : FuncType} {args : List RVal} {s : Store W} (hf : m.ctx.ftype f = some ty) (hargs : ValsOK m.ctx args ty.inputs)
    (hok : StoreOK m.ctx s) (a : A) :
    let rewritten := machineOf H (m.rewritten C (bodyTargets m ts) .nothing (c.replaced iface)).functions
    let instrumented := machineOf H' r.module.functions
    (∀ vs s1, (∃ L d, callF N rewritten L d f args s = .ok vs s1) ↔ ∃ L d a1, callF N instrumented L d f args (s.withAnalysis a) = .ok vs (s1.withAnalysis a1)) ∧
    (∀ s1, (∃ L d, callF N rewritten L d f args s = .trap s1) ↔ ∃ L d a1, callF N instrumented L d f args (s.withAnalysis a) = .trap (s1.withAnalysis a1)) ∧
    ((∀ L d, callF N rewritten L d f args s = .fuel) ↔ ∀ L d, callF N instrumented L d f args (s.withAnalysis a) = .fuel) := by
  have hm1 : m.memories.length ≤ 1 := by
    obtain ⟨ord, ord', ho, ho', h⟩ := h
    exact ((instrument_ok_iff ho ho' hs).1 ⟨r, h⟩).1
  have hvr := C15_instrumented_module_valid hs hst.standard (by intro ge cb h; rw [hg] at h; cases h) h hvm hB hres
  have hO' : ∀ i ∈ bodyTargets m ts, ∀ f c, m.functions[i]? = some f → f.code = .present c →
      OnlyCode (OffsetsAre iface (fun o => o.toNat < 2 ^ 31 ∧ (true = true → o = 0))) c.body := by
    intro i hi f c hf hc b hb t k info hd ht
    have := hO i hi f c hf hc b hb t k info hd ht
    cases b <;> first | trivial | (simp only at this ⊢; rw [this]; exact ⟨by decide, fun _ => rfl⟩)
  exact outcomes_of_bounds fun L d => rewriting_bounds hs hst.standard hg h hvm hB hO' (fun mo => C89_library_rewrites_all hm1 hst hc hL true mo) (k := 2) (by omega)
    (fun mo L d hd => base_calls hs h hvr.exports N H' L d mo (hd.imp id (by omega))) hI hf hargs hok a L d

/-- **C89 (with offsets).** The same analyses, the loads and stores handed to them having offsets below 2^31: whenever the rewritten program ends normally, so does the instrumented one, with the same results and
program state (two calls deeper at most); when the instrumented program ends normally, so does the rewritten one, with the same results and program state, or it traps. (It may trap where the instrumented one does
not, when an address plus offset exceeds 2^32: C19.) -/
theorem C89_library_rewrites_accesses_with_offsets {C iface ts m r} (hs : SmallModule m) (hst : iface.Documented) (hg : iface.generic = none)
    (h : Instruments C iface ts m r) (hvm : ValidModule m)
    (hB : ∀ i ∈ bodyTargets m ts, ∀ f, m.functions[i]? = some f → WellAnnotated m f (bodyOf C m i)) (hres : ∀ name ∈ iface.toolExports, name ∉ m.exportNames)
    (hO : ∀ i ∈ bodyTargets m ts, ∀ f c, m.functions[i]? = some f → f.code = .present c → OnlyCode (OffsetsAre iface fun o => o.toNat < 2 ^ 31) c.body)
    {N : Num} {c : Choices} (hc : c.Typed) {H : Imports W} {H' : Imports (W × A)}
    (hL : LinkedTo iface (choosingBody N c r.module.exported) H') (hI : ImportsAgree m (fun w (p : W × A) => w = p.1) H H')
    {f : Nat} {ty : FuncType} {args : List RVal} {s : Store W} (hf : m.ctx.ftype f = some ty) (hargs : ValsOK m.ctx args ty.inputs)
    (hok : StoreOK m.ctx s) (a : A) (L d : Nat) :
    let rewritten := machineOf H (m.rewritten C (bodyTargets m ts) .nothing (c.replaced iface)).functions
    let instrumented := machineOf H' r.module.functions
    (∀ vs s1, callF N rewritten L d f args s = .ok vs s1 → ∃ a1, callF N instrumented L (d + 2) f args (s.withAnalysis a) = .ok vs (s1.withAnalysis a1)) ∧
    (∀ vs s1', callF N instrumented L d f args (s.withAnalysis a) = .ok vs s1' →
      (∃ s1 a1, callF N rewritten L d f args s = .ok vs s1 ∧ s1' = s1.withAnalysis a1) ∨ ∃ s1, callF N rewritten L d f args s = .trap s1) := by
  have hm1 : m.memories.length ≤ 1 := by
    obtain ⟨ord, ord', ho, ho', h⟩ := h
    exact ((instrument_ok_iff ho ho' hs).1 ⟨r, h⟩).1
  have hvr := C15_instrumented_module_valid hs hst.standard (by intro ge cb h; rw [hg] at h; cases h) h hvm hB hres
  have hO' : ∀ i ∈ bodyTargets m ts, ∀ f c, m.functions[i]? = some f → f.code = .present c →
      OnlyCode (OffsetsAre iface (fun o => o.toNat < 2 ^ 31 ∧ (false = true → o = 0))) c.body := by
    intro i hi f c hf hc b hb t k info hd ht
    have := hO i hi f c hf hc b hb t k info hd ht
    cases b <;> first | trivial | exact ⟨this, fun h => by cases h⟩
  exact rewriting_results hs hst.standard hg h hvm hB hO' (fun mo => C89_library_rewrites_all hm1 hst hc hL false mo) (k := 2) (by omega)
    (fun mo L d hd => base_calls hs h hvr.exports N H' L d mo (hd.imp id (by omega))) hI hf hargs hok a L d

/-! ## Example: words stored as bytes -/

/-- `i32.store` is performed as `i32.store8`; everything else as it is. -/
def exBytes : Choices := ⟨fun op _ => op, fun op _ => op, fun op _ => op, fun op _ => if op = .i32Store then .i32Store8 else op⟩

theorem exBytes_typed : exBytes.Typed :=
  ⟨fun _ _ => rfl, fun _ _ => rfl, fun _ _ => rfl, fun op l => by unfold exBytes; dsimp only; split <;> simp_all [StoreOp.ty]⟩

/-- A memory full of ones. -/
def exOnes : Store Unit := ⟨[], [⟨1, 65536, fun _ => 255⟩], [], [], [], ()⟩

theorem exOnes_ok {st : StoreOp} {op : LoadOp} : StoreOK (exHeap st op).ctx exOnes where
  globals := .nil
  mems := rfl
  tables := rfl
  tableElems := by intro e he; cases he
  datas := rfl
  elems := rfl
  elemElems := by intro e he; cases he
  pages := by
    intro x hx
    simp only [exOnes, List.mem_cons, List.not_mem_nil, or_false] at hx
    subst hx
    exact ⟨by decide, by decide⟩

/-- The results of a call. -/
def exReturned : Res Unit → Option (List RVal)
  | .ok vs _ => some vs
  | _ => none

-- C89: all hypotheses hold of the example. `main(8)` writes the word 7 at 8 and reads it back; under the analysis it only writes one byte of it.
example : ∃ r, Instruments exTypedChecker exMemIface none (exHeap .i32Store .i32Load) r ∧
    exReturned (callF exNum (machineOf (fun _ _ _ _ _ => .stuck) (exHeap .i32Store .i32Load).functions) 10 10 0 [.i32 8] exOnes) = some [.i32 7] ∧ ∃ L d s1,
    callF exNum (machineOf (exMemImports (choosingBody exNum exBytes r.module.exported)) r.module.functions) L d 0 [.i32 8] (exOnes.withAnalysis ()) = .ok [.i32 0xffffff07] s1 := by
  obtain ⟨r, hr⟩ := exHeap_instruments (st := .i32Store) (op := .i32Load)
  refine ⟨r, hr, by decide +kernel, ?_⟩
  have hx : exReturned (callF exNum (machineOf (fun _ _ _ _ _ => .stuck) ((exHeap .i32Store .i32Load).rewritten exTypedChecker (bodyTargets (exHeap .i32Store .i32Load) none) .nothing
      (exBytes.replaced exMemIface)).functions) 10 10 0 [.i32 8] exOnes) = some [.i32 0xffffff07] := by decide +kernel
  generalize ho : callF exNum _ 10 10 0 [.i32 8] exOnes = o at hx
  cases o <;> simp [exReturned] at hx
  rename_i vs s1
  subst hx
  obtain ⟨L, d, _, e⟩ := ((C89_library_rewrites_memory_accesses exHeap_small exMemIface_documented rfl hr (exHeap_valid rfl rfl) (exHeap_annotated rfl rfl)
    (by rw [show (exHeap .i32Store .i32Load).exportNames = ["main"] from rfl]; decide +kernel) exHeap_offsets exBytes_typed (exMem_linked _)
    (H := fun _ _ _ _ _ => .stuck) (fun f hf ns name hc => (exHeap_noImports hf hc).elim) (f := 0) (ty := ⟨[.i32], [.i32]⟩) rfl
    (ValsOK.nil.cons rfl (by simp [RVal.OK])) exOnes_ok ()).1 _ _).1 ⟨10, 10, ho⟩
  exact ⟨L, d, _, e⟩

/-- Halves are loaded as bytes; everything else as it is. -/
def exHalves : Choices := ⟨fun op _ => op, fun op _ => op, fun op _ => if op = .i32Load16U then .i32Load8U else op, fun op _ => op⟩

theorem exHalves_typed : exHalves.Typed :=
  ⟨fun _ _ => rfl, fun _ _ => rfl, fun op l => by unfold exHalves; dsimp only; split <;> simp_all [LoadOp.ty], fun _ _ => rfl⟩

-- C89 (with offsets): all hypotheses hold of the example of C56. `main(8)` writes the byte 5 at 8 + 3 and reads two bytes from 8 + 2; under the analysis it reads one.
example : ∃ r, Instruments exTypedChecker exMemIface none exMem r ∧
    exReturned (callF exNum (machineOf (fun _ _ _ _ _ => .stuck) exMem.functions) 10 10 0 [.i32 8] exMemStore) = some [.i32 0x500] ∧ ∃ s1,
    callF exNum (machineOf (exMemImports (choosingBody exNum exHalves r.module.exported)) r.module.functions) 10 12 0 [.i32 8] (exMemStore.withAnalysis ()) = .ok [.i32 0] s1 := by
  obtain ⟨r, hr⟩ := exMem_instruments
  refine ⟨r, hr, by decide +kernel, ?_⟩
  have hx : exReturned (callF exNum (machineOf (fun _ _ _ _ _ => .stuck) (exMem.rewritten exTypedChecker (bodyTargets exMem none) .nothing
      (exHalves.replaced exMemIface)).functions) 10 10 0 [.i32 8] exMemStore) = some [.i32 0] := by decide +kernel
  generalize ho : callF exNum _ 10 10 0 [.i32 8] exMemStore = o at hx
  cases o <;> simp [exReturned] at hx
  rename_i vs s1
  subst hx
  obtain ⟨_, e⟩ := (C89_library_rewrites_accesses_with_offsets exMem_small exMemIface_documented rfl hr exMem_valid exMem_annotated (by decide +kernel) exMem_offsets exHalves_typed (exMem_linked _)
    (H := fun _ _ _ _ _ => .stuck) (fun f hf ns name hc => (exMem_noImports hf hc).elim) (f := 0) (ty := ⟨[.i32], [.i32]⟩) rfl
    (ValsOK.nil.cons rfl (by simp [RVal.OK])) exMemStore_ok () 10 10).1 _ _ ho
  exact ⟨_, e⟩

end Wastrum
