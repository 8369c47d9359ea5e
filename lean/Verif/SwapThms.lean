import Verif.WeaveThms
/-!
# Analyses that perform other operations (C89)

`C89_performing_others_rewrites_the_program` (in `WeaveThms.lean`) is the general statement. Here it is applied to analyses written with the Rust library.

Spec: `Module.rewritten` with `replaced` is the program whose unary and binary operations have been replaced by others, where the analysis has hooks.
-/

set_option linter.unusedSimpArgs false
set_option linter.unusedVariables false

namespace Wastrum

variable {W A : Type}

/-- Advice of a user of the library: `unary` and `binary` perform the operation chosen by `u` and `v` from the one they are handed and its location, with
`apply` of the library; any other advice is the forwarding analysis' (`forward/src/lib.rs` 14-271, where `u` and `v` return the operation itself). -/
def swappingBody (N : Num) (u : UnaryOp → Location → UnaryOp) (v : BinaryOp → Location → BinaryOp) (base : String → Option Nat) (a : Advice)
    (call : Nat → List RVal → Store W → Res W) (s : Store W) : Res W :=
  match a with
  | .unary op x l => orTrap ((u op l).apply N x) s
  | .binary op x y l => orTrap ((v op l).apply N x y) s
  | a => forwardBody N base a call s

/-- **Specification.** The replaced instructions: the unary and binary operations for which there is a hook. -/
def replaced (iface : Interface) (u : UnaryOp → Location → UnaryOp) (v : BinaryOp → Location → BinaryOp) : Swap := fun f i b =>
  match b with
  | .unary op => if ((unaryTrap op.sig).bind iface.trap).isSome then .unary (u op (.new (.ofNat 64 f) (.ofNat 64 i))) else .unary op
  | .binary op => if ((binaryTrap op.sig).bind iface.trap).isSome then .binary (v op (.new (.ofNat 64 f) (.ofNat 64 i))) else .binary op
  | b => b

/-- **Specification.** No instruction is inserted. -/
def Patch.nothing : Patch := fun _ _ _ => []

theorem unary_swapped {N : Num} {base : String → Option Nat} {u : UnaryOp → Location → UnaryOp} {w : BinaryOp → Location → BinaryOp}
    (hu : ∀ op l, (u op l).sig = op.sig) {op : UnaryOp} {t : Trap} (hd : unaryTrap op.sig = some t) {v : Val}
    (hvn : v.type = op.sig.1) {f i : BitVec 64} {call} {s : Store W} :
    stdHook (swappingBody N u w base) t call [.num v, .i32 op.serialize, .i64 f, .i64 i] s = execute N (.unary (u op (.new f i))) [.num v] s := by
  have he : stdEntry t [.num v, .i32 op.serialize, .i64 f, .i64 i] = some (.unary op v (.new f i)) := by
    rw [stdEntry_unary hd hvn, (C17_unary_codes _ op).2 rfl]; rfl
  have hvn' : v.type = (u op (.new f i)).sig.1 := by rw [hu]; exact hvn
  rw [stdHook_ok he]
  · simp only [swappingBody, (u op (.new f i)).apply_eq, hvn', if_true, execute, execInstr, step, List.reverse_cons, List.reverse_nil, List.nil_append]
    cases N.unary (u op (.new f i)) v <;> rfl
  · intro vs s1
    simp only [swappingBody, (u op (.new f i)).apply_eq, hvn', if_true]
    cases hn : N.unary (u op (.new f i)) v with
    | none => intro h; cases h
    | some x =>
      intro h; cases h
      rw [(unaryTrap_args hd).2, ← hu op (.new f i), ← N.unary_type _ v x hn]; rfl

theorem binary_swapped {N : Num} {base : String → Option Nat} {u : UnaryOp → Location → UnaryOp} {z : BinaryOp → Location → BinaryOp}
    (hz : ∀ op l, (z op l).sig = op.sig) {op : BinaryOp} {t : Trap} (hd : binaryTrap op.sig = some t) {v w : Val}
    (hvn : v.type = op.sig.1) (hwn : w.type = op.sig.1) {f i : BitVec 64} {call} {s : Store W} :
    stdHook (swappingBody N u z base) t call [.num v, .num w, .i32 op.serialize, .i64 f, .i64 i] s = execute N (.binary (z op (.new f i))) [.num v, .num w] s := by
  have he : stdEntry t [.num v, .num w, .i32 op.serialize, .i64 f, .i64 i] = some (.binary op v w (.new f i)) := by
    rw [stdEntry_binary hd hvn hwn, (C17_binary_codes _ op).2 rfl]; rfl
  have hvn' : v.type = (z op (.new f i)).sig.1 := by rw [hz]; exact hvn
  have hwn' : w.type = (z op (.new f i)).sig.1 := by rw [hz]; exact hwn
  rw [stdHook_ok he]
  · simp only [swappingBody, (z op (.new f i)).apply_eq, hvn', hwn', and_self, if_true, execute, execInstr, step, List.reverse_cons, List.reverse_nil,
      List.nil_append, List.cons_append]
    cases N.binary (z op (.new f i)) v w <;> rfl
  · intro vs s1
    simp only [swappingBody, (z op (.new f i)).apply_eq, hvn', hwn', and_self, if_true]
    cases hn : N.binary (z op (.new f i)) v w with
    | none => intro h; cases h
    | some x =>
      intro h; cases h
      rw [(binaryTrap_args hd).2, ← hz op (.new f i), ← N.binary_type _ v w x hn]; rfl

/-- The observing hooks return what they are shown. -/
theorem swapping_shown {N : Num} {base : String → Option Nat} {u v} {t : Trap} (ht : t.performs = false) (call) (args : List RVal) (s : Store W)
    (h : args.map RVal.type = t.args) : stdHook (swappingBody N u v base) t call args s = .ok (args.take t.results.length) s := by
  have vals : ∀ v : RVal, (∀ r, v.type ≠ .ref r) → ∃ x, v = .num x := by
    intro v hv
    cases v with
    | num x => exact ⟨x, rfl⟩
    | ref r a => exact absurd rfl (hv r)
  cases t <;> first | (cases ht; done) | skip
  all_goals
    simp only [Trap.args] at h
    repeat
      replace h := map_type_cons h
      obtain ⟨v, _, rfl, hv, h⟩ := h
      obtain ⟨v, rfl⟩ := vals v (by rw [hv]; intro r; simp)
      cases v <;> first | (cases hv; done) | skip
    cases map_type_nil h
    rfl

/-- **Specification.** Of the operations handed to the analysis, it has hooks for unary and binary ones only (not for the memory). -/
def Interface.ArithmeticOnly (iface : Interface) : Prop :=
  ∀ b t k info, delegation b = some (t, k, info) → (iface.trap t).isSome → (∃ op, b = .unary op) ∨ ∃ op, b = .binary op

/-- The hooks of such an analysis do what the replaced instructions do. -/
theorem C89_library_rewrites {iface : Interface} (hst : iface.Documented) (hmem : iface.ArithmeticOnly) {N : Num} {base : String → Option Nat}
    {u : UnaryOp → Location → UnaryOp} {v : BinaryOp → Location → BinaryOp} (hu : ∀ op l, (u op l).sig = op.sig) (hv : ∀ op l, (v op l).sig = op.sig)
    {H : Imports (W × A)} (hL : LinkedTo iface (swappingBody N u v base) H) :
    RewritesBy N iface .nothing (replaced iface u v) (fun _ _ a a' => a' = a) H := by
  have hH : ∀ t e, iface.trap t = some e → H "WASTRUMENTATION_ANALYSIS" e.name = stdHook (swappingBody N u v base) t := by
    intro t e he
    have hnm := hL t (by rw [he]; rfl)
    rw [C49_library_exports_what_is_imported] at hnm
    rw [hst t e he]
    exact hnm
  refine ⟨⟨fun _ _ _ _ => rfl, fun _ _ => .inl rfl⟩, fun _ _ _ _ => rfl, ?_, ?_, ?_, ?_⟩
  · intro f i b
    cases b
    case unary op => simp only [replaced]; split <;> first | exact .unary (hu _ _).symm | exact .same _
    case binary op => simp only [replaced]; split <;> first | exact .binary (hv _ _).symm | exact .same _
    all_goals exact .same _
  · intro f i b h
    cases b
    case unary op =>
      simp only [replaced]
      refine if_neg ?_
      cases ht : unaryTrap op.sig with
      | none => simp
      | some t => simp only [Option.bind_some, h t 1 [.i32 op.serialize] (by simp only [delegation, ht, Option.map_some])]; simp
    case binary op =>
      simp only [replaced]
      refine if_neg ?_
      cases ht : binaryTrap op.sig with
      | none => simp
      | some t => simp only [Option.bind_some, h t 2 [.i32 op.serialize] (by simp only [delegation, ht, Option.map_some])]; simp
    all_goals rfl
  · intro t e he ho call operands info f i s a hto hty
    refine ⟨operands, a, computes_nil N _, hto, rfl, ?_⟩
    rw [hH t e he, swapping_shown (Trap.not_performs ho) call _ _ hty]
    have : t.results.length = operands.length := by rw [← hto, List.length_map]
    rw [this, List.append_assoc, List.take_left]
  · intro t e he b k info hd call ops f i s a hk hty
    refine ⟨a, rfl, ?_⟩
    rw [hH t e he]
    rcases hmem b t k info hd (by rw [he]; rfl) with ⟨op, rfl⟩ | ⟨op, rfl⟩
    · simp only [delegation, Option.map_eq_some_iff, Prod.mk.injEq] at hd
      obtain ⟨t, hd, rfl, rfl, rfl⟩ := hd
      obtain ⟨x, rfl⟩ : ∃ x, ops = [x] := by match ops, hk with | [x], _ => exact ⟨x, rfl⟩
      rw [(unaryTrap_args hd).1] at hty
      simp only [List.cons_append, List.nil_append, List.map_cons, List.map_nil, List.cons.injEq, and_true] at hty
      obtain ⟨x, rfl, hx⟩ := RVal.type_num hty.1 op.sig_num
      simp only [replaced, hd, Option.bind_some, he, Option.isSome_some, if_true]
      have hd' : delegation (.unary (u op (.new (.ofNat 64 f) (.ofNat 64 i)))) = some (t, 1, [.i32 (u op (.new (.ofNat 64 f) (.ofNat 64 i))).serialize]) := by
        simp only [delegation, hu, hd, Option.map_some]
      rw [← execute_withAnalysis hd']
      exact unary_swapped hu hd hx
    · simp only [delegation, Option.map_eq_some_iff, Prod.mk.injEq] at hd
      obtain ⟨t, hd, rfl, rfl, rfl⟩ := hd
      obtain ⟨x, y, rfl⟩ : ∃ x y, ops = [x, y] := by match ops, hk with | [x, y], _ => exact ⟨x, y, rfl⟩
      rw [(binaryTrap_args hd).1] at hty
      simp only [List.cons_append, List.nil_append, List.map_cons, List.map_nil, List.cons.injEq, and_true] at hty
      obtain ⟨x, rfl, hx⟩ := RVal.type_num hty.1 op.sig_num
      obtain ⟨y, rfl, hy⟩ := RVal.type_num hty.2.1 op.sig_num
      simp only [replaced, hd, Option.bind_some, he, Option.isSome_some, if_true]
      have hd' : delegation (.binary (v op (.new (.ofNat 64 f) (.ofNat 64 i)))) = some (t, 2, [.i32 (v op (.new (.ofNat 64 f) (.ofNat 64 i))).serialize]) := by
        simp only [delegation, hv, hd, Option.map_some]
      rw [← execute_withAnalysis hd']
      exact binary_swapped hv hd hx hy

/-- **C89 (analyses written with the Rust library).** Let an analysis' `unary` and `binary` advice perform, with `apply`, an operation chosen from the
operator and the location, with the same types as the one handed. The instrumented program behaves exactly like the program in which the hooked unary and binary
operations of the targets have been replaced by the chosen ones: same results, same traps, same program states, and it runs forever in one iff in the other. -/
theorem C89_library_rewrites_the_program {C iface ts m r} (hs : SmallModule m) (hst : iface.Documented) (hg : iface.generic = none) (hmem : iface.ArithmeticOnly)
    (h : Instruments C iface ts m r) (hvm : ValidModule m)
    (hB : ∀ i ∈ bodyTargets m ts, ∀ f, m.functions[i]? = some f → WellAnnotated m f (bodyOf C m i))
    {N : Num} {base : String → Option Nat} {u : UnaryOp → Location → UnaryOp} {v : BinaryOp → Location → BinaryOp}
    (hu : ∀ op l, (u op l).sig = op.sig) (hv : ∀ op l, (v op l).sig = op.sig) {H : Imports W} {H' : Imports (W × A)}
    (hL : LinkedTo iface (swappingBody N u v base) H') (hI : ImportsAgree m (fun w (p : W × A) => w = p.1) H H')
    {f : Nat} {ty : FuncType} {args : List RVal} {s : Store W} (hf : m.ctx.ftype f = some ty) (hargs : ValsOK m.ctx args ty.inputs)
    (hok : StoreOK m.ctx s) (a : A) :
    let rewritten := machineOf H (m.rewritten C (bodyTargets m ts) .nothing (replaced iface u v)).functions
    let instrumented := machineOf H' r.module.functions
    (∀ vs s1, (∃ L d, callF N rewritten L d f args s = .ok vs s1) ↔ ∃ L d a1, callF N instrumented L d f args (s.withAnalysis a) = .ok vs (s1.withAnalysis a1)) ∧
    (∀ s1, (∃ L d, callF N rewritten L d f args s = .trap s1) ↔ ∃ L d a1, callF N instrumented L d f args (s.withAnalysis a) = .trap (s1.withAnalysis a1)) ∧
    ((∀ L d, callF N rewritten L d f args s = .fuel) ↔ ∀ L d, callF N instrumented L d f args (s.withAnalysis a) = .fuel) :=
  C89_performing_others_rewrites_the_program hs hst.standard hg h hvm hB (C89_library_rewrites hst hmem hu hv hL) hI hf hargs hok a

/-! ## Example: multiplications performed as additions -/

/-- `i32.mul` is performed as `i32.add`. -/
def exSwap : BinaryOp → Location → BinaryOp := fun op _ => if op = .i32Mul then .i32Add else op

/-- The analysis, linked with the example program. -/
def exSwapHost : Imports (List RVal × Unit) := fun ns name call args s =>
  if ns = "WASTRUMENTATION_ANALYSIS" then
    match [Trap.ifThenElseTrap, .preTrapCall, .postTrapCall, .binaryI32I32ToI32].find? fun t => t.exportName == name with
    | some t => stdHook (swappingBody exNum (fun op _ => op) exSwap fun _ => none) t call args s
    | none => .stuck
  else exImports.beside Unit ns name call args s

theorem exIface_arithmetic : exIface.ArithmeticOnly := by
  intro b t k info hd h
  have : t = .ifThenElseTrap ∨ t = .preTrapCall ∨ t = .postTrapCall ∨ t = .binaryI32I32ToI32 := by
    simp only [exIface] at h
    split at h
    · assumption
    · cases h
  cases b <;> try (simp [delegation] at hd; done)
  case binary op => exact .inr ⟨op, rfl⟩
  case unary op => exact .inl ⟨op, rfl⟩
  case load op ma =>
    simp only [delegation, Option.map_eq_some_iff, Prod.mk.injEq] at hd
    obtain ⟨t, hd, rfl, rfl, rfl⟩ := hd
    rcases this with rfl | rfl | rfl | rfl <;> cases op <;> simp [loadTrap, LoadOp.ty] at hd
  case store op ma =>
    simp only [delegation, Option.map_eq_some_iff, Prod.mk.injEq] at hd
    obtain ⟨t, hd, rfl, rfl, rfl⟩ := hd
    rcases this with rfl | rfl | rfl | rfl <;> cases op <;> simp [storeTrap, StoreOp.ty] at hd
  case memoryGrow i =>
    simp only [delegation, Option.some.injEq, Prod.mk.injEq] at hd
    obtain ⟨rfl, _⟩ := hd
    simp at this

theorem exSwapHost_linked : LinkedTo exIface (swappingBody exNum (fun op _ => op) exSwap fun _ => none) exSwapHost := by
  intro t h
  rw [C49_library_exports_what_is_imported]
  have : t = .ifThenElseTrap ∨ t = .preTrapCall ∨ t = .postTrapCall ∨ t = .binaryI32I32ToI32 := by
    simp only [exIface] at h
    split at h
    · assumption
    · cases h
  funext call args s
  simp only [exSwapHost, if_true]
  have e : List.find? (fun u => u.exportName == t.exportName) [Trap.ifThenElseTrap, .preTrapCall, .postTrapCall, .binaryI32I32ToI32] = some t := by
    rcases this with rfl | rfl | rfl | rfl <;> decide +kernel
  show (match List.find? (fun u => u.exportName == t.exportName) [Trap.ifThenElseTrap, .preTrapCall, .postTrapCall, .binaryI32I32ToI32] with
    | some t => stdHook (swappingBody exNum (fun op _ => op) exSwap fun _ => none) t call args s
    | none => .stuck) = _
  rw [e]

-- The rewritten program: `square` adds instead of multiplying, and nothing else has changed.
example : (exModule.rewritten exTypedChecker (bodyTargets exModule none) .nothing (replaced exIface (fun op _ => op) exSwap)).functions.map
      (fun f => match f.code with | .present c => c.body | _ => []) =
    [[], [.loc .get 0, .ite ⟨[], [.i32]⟩, .loc .get 1, .els, .const (.i32 7), .call 2, .fin, .fin],
      [.loc .get 0, .call 0, .loc .get 0, .loc .get 0, .binary .i32Add, .fin], [.fin]] := by decide +kernel

-- C89: all hypotheses hold of the example. The original `main(0, 5)` prints 7 and returns 49; under the analysis it prints 7 and returns 14.
example : ∃ r, Instruments exTypedChecker exIface none exModule r ∧ ∃ L d,
    callF exNum (machineOf exSwapHost r.module.functions) L d 1 [.i32 0, .i32 5] (exStore.withAnalysis ()) =
      .ok [.i32 14] (Store.withAnalysis { exStore with world := [.i32 7] } ()) := by
  obtain ⟨r, hr⟩ := instruments_of_ok (C := exTypedChecker) (iface := exIface) (ts := none) (m := exModule) (by decide) exModule_small exModule_raises_typed
  refine ⟨r, hr, ?_⟩
  have key := (C89_library_rewrites_the_program exModule_small exIface_documented rfl exIface_arithmetic hr exModule_valid exModule_annotated (N := exNum)
    (u := fun op _ => op) (v := exSwap) (fun _ _ => rfl) (fun op l => by unfold exSwap; split <;> simp_all [BinaryOp.sig]) exSwapHost_linked
    (H := exImports) ?_ (f := 1) (ty := ⟨[.i32, .i32], [.i32]⟩) (args := [.i32 0, .i32 5]) (s := exStore) rfl
    (ValsOK.nil.cons rfl (by simp [RVal.OK]) |>.cons rfl (by simp [RVal.OK])) exStore_ok ()).1
  · obtain ⟨L, d, a1, e⟩ := (key [.i32 14] { exStore with world := [.i32 7] }).1 ⟨10, 10, rfl⟩
    exact ⟨L, d, e⟩
  · refine .plain fun f hf ns name hc => ?_
    simp only [exModule, List.mem_cons, List.not_mem_nil, or_false] at hf
    rcases hf with rfl | rfl | rfl | rfl <;> cases hc
    exact ⟨⟨fun _ _ => rfl, fun call args s ha hs => .inl ⟨_, _, rfl, .nil, hs.world rfl rfl rfl rfl rfl⟩⟩, rfl⟩

end Wastrum
