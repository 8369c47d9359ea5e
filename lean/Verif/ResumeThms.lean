import Verif.Resume
/-!
# An analysis that resumes every intercepted call is transparent (C23)
-/

set_option linter.unusedSimpArgs false
set_option linter.unusedVariables false

namespace Wastrum

variable {W A : Type}

/-- C23. Let a valid program be instrumented, including its function applications, and linked with the stack library and an
analysis whose `apply` advice resumes every call (it may look at the arguments before, at the results after, and keep a state of its own)
and whose other hooks forward. A state of the instrumented program is a state `s` of the original, extended by the tables `T` and
segments `X` the tool has added, the analysis' state `a` and the library's state `l`. Then, for every function `f` of the program, every
signature, all arguments and every state:
* if calling `f` in the original returns `vs` in state `s1`, calling it in the instrumented program returns `vs` in the same program
state, and the stack allocator is back where it was;
* if it traps in the original, it traps in the instrumented program, in the same program state;
* and conversely: if it returns or traps in the instrumented program, it does so in the original;
* neither goes wrong.
`L` bounds loop iterations and `d` the depth of calls; an intercepted call takes five levels where the original takes one. The library's
memory must have room for `d` nested frames of at most `B` bytes (when it has not, calls trap: `C26_traps_only_when_full`). -/
theorem C23_resuming_is_transparent {C iface ts m r ge cb} (hs : SmallModule m) (hst : iface.Standard) (hsa : iface.StandardApply) (h : Instruments C iface ts m r)
    (hg : iface.generic = some (ge, cb)) (hv : ValidModule m)
    (hB : ∀ i ∈ bodyTargets m ts, ∀ f, m.functions[i]? = some f → WellAnnotated m f (bodyOf C m i)) :
    ∃ base : Nat, (∃ f, r.module.functions[base]? = some f ∧ f.exports = [cb.name]) ∧
      ∀ (W A : Type) (K : LibLink) (N : Num) (T : List Table) (X : List (RefType × List (Option Nat))) (B : Nat) (H : Imports W) (H' : Imports (World W A)),
        Resuming C iface ts m r ge K N base T X B H H' →
        ∀ (f : Nat) (ty : FuncType) (args : List RVal) (s : Store W) (a : A) (l : Lib),
          m.ctx.ftype f = some ty → ValsOK m.ctx args ty.inputs → StoreOK m.ctx s →
          l.Ok → l.mem.pages < 65536 → SegmentsIntact m r (s.extend T X (s.world, a, l.store)) →
        ∀ (L d : Nat), l.free + d * B ≤ l.mem.limit * 65536 → l.free + d * B ≤ 65535 * 65536 →
          let original := callF N (machineOf H m.functions) L
          let instrumented := callF N (machineOf H' r.module.functions) L
          let s' := s.extend T X (s.world, a, l.store)
          (∀ vs s1, original d f args s = .ok vs s1 →
            ∃ a1 l1, instrumented (5 * d + 1) f args s' = .ok vs (s1.extend T X (s1.world, a1, l1.store)) ∧ Lib.Ok l1 ∧ l1.free = l.free ∧ l1.mem.limit = l.mem.limit) ∧
          (∀ s1, original d f args s = .trap s1 → ∃ a1 st1, instrumented (5 * d + 1) f args s' = .trap (s1.extend T X (s1.world, a1, st1))) ∧
          (∀ vs s1', instrumented d f args s' = .ok vs s1' →
            ∃ s1 a1 l1, original d f args s = .ok vs s1 ∧ s1' = s1.extend T X (s1.world, a1, l1.store) ∧ Lib.Ok l1 ∧ l1.free = l.free ∧ l1.mem.limit = l.mem.limit) ∧
          (∀ s1', instrumented d f args s' = .trap s1' → ∃ s1 a1 st1, original d f args s = .trap s1 ∧ s1' = s1.extend T X (s1.world, a1, st1)) ∧
          original d f args s ≠ .stuck ∧ instrumented d f args s' ≠ .stuck := by
  obtain ⟨order, fs, sigs, hooks, copy, hA⟩ := applied hs h hg
  have hstd := hsa ge cb hg
  refine ⟨copy + 2 * order.length, ⟨_, hA.at.callBase, rfl⟩, ?_⟩
  intro W A K N T X B H H' hR f ty args s a l hf ha hok ok hpg hseg L d hc1 hc2
  have hsigs : sigs = K.sigs := by have := hA.sigs_eq; rw [hR.sigs] at this; exact (Option.some.inj this).symm
  subst hsigs
  have hsz : order.length < 2 ^ 32 := by
    have := hA.count
    have := hs.functions
    omega
  have hseg' : ∀ s : Store (World W A), s.tables[m.tables.length]? = T[0]? → SegmentsIntact m r s := by
    intro s2 e
    refine intact_of hA hseg ?_
    rw [e]
    have hl := tables_length hok
    simp only [Store.extend]
    rw [List.getElem?_append_right (by omega)]
    simp [hl]
  have hS : ∀ fl fr, (besideLib m.ctx T X (fun _ => LibAt l.free l.mem.limit) never fl fr).S s (s.extend T X (s.world, a, l.store)) :=
    fun fl fr => ⟨hok, _, ⟨rfl, l, rfl, ok, rfl, rfl, hpg⟩, rfl⟩
  have k1 := resumed_forward (L := L) hs hst h hA ⟨hstd.1, hstd.2.1⟩ ⟨hstd.2.2.1, hstd.2.2.2.1⟩ hsz hv hB hR hseg' (M := l.mem.limit) d (5 * d + 1) l.free (Nat.le_refl _) hc1 hc2
    f ty args s _ hf ha (hS _ _)
  have k2 := resumed_backward (L := L) hs hst h hA ⟨hstd.1, hstd.2.1⟩ ⟨hstd.2.2.1, hstd.2.2.2.1⟩ hsz hv hB hR hseg' (M := l.mem.limit) d d l.free (Nat.le_refl _) hc1 hc2
    f ty args s _ hf ha (hS _ _)
  intro original instrumented s'
  change (besideLib m.ctx T X (fun _ => LibAt l.free l.mem.limit) never true false).Ress m.ctx ty.results (original d f args s) (instrumented (5 * d + 1) f args s') at k1
  change (besideLib m.ctx T X (fun _ => LibAt l.free l.mem.limit) never false true).Ress m.ctx ty.results (original d f args s) (instrumented d f args s') at k2
  generalize original d f args s = o at k1 k2 ⊢
  generalize instrumented (5 * d + 1) f args s' = o1 at k1 ⊢
  generalize instrumented d f args s' = o0 at k2 ⊢
  have unS : ∀ {fl fr} {s1 : Store W} {s1' : Store (World W A)}, (besideLib m.ctx T X (fun _ => LibAt l.free l.mem.limit) never fl fr).S s1 s1' →
      ∃ a1 l1, s1' = s1.extend T X (s1.world, a1, l1.store) ∧ Lib.Ok l1 ∧ l1.free = l.free ∧ l1.mem.limit = l.mem.limit := by
    rintro fl fr s1 s1' ⟨_, ⟨w, a1, st⟩, ⟨e, l1, e1, ok1, h1, h2, _⟩, rfl⟩
    dsimp only at e e1
    subst e e1
    exact ⟨a1, l1, rfl, ok1, h1, h2⟩
  have unT : ∀ {fl fr} {s1 : Store W} {s1' : Store (World W A)}, (besideLib m.ctx T X (fun _ => LibAt l.free l.mem.limit) never fl fr).T s1 s1' →
      ∃ a1 st1, s1' = s1.extend T X (s1.world, a1, st1) := by
    rintro fl fr s1 s1' ⟨_, ⟨w, a1, st⟩, e, rfl⟩
    dsimp only at e
    subst e
    exact ⟨a1, st, rfl⟩
  refine ⟨?_, ?_, ?_, ?_, ?_, ?_⟩
  · rintro vs s1 rfl
    cases k1 with
    | ok hv hS1 => obtain ⟨a1, l1, rfl, hl⟩ := unS hS1; exact ⟨a1, l1, rfl, hl⟩
    | fuelR h => cases h
    | trapR h => exact absurd h id
  · rintro s1 rfl
    cases k1 with
    | trap hS1 => obtain ⟨a1, l1, rfl, hl⟩ := unS hS1; exact ⟨a1, _, rfl⟩
    | trapT hT => obtain ⟨a1, st1, rfl⟩ := unT hT; exact ⟨a1, st1, rfl⟩
    | trapL h => cases h
    | fuelR h => cases h
    | trapR h => exact absurd h id
  · rintro vs s1' rfl
    cases k2 with
    | ok hv hS1 => obtain ⟨a1, l1, rfl, hl⟩ := unS hS1; exact ⟨_, a1, l1, rfl, rfl, hl⟩
    | fuelL h => cases h
    | trapL h => cases h
  · rintro s1' rfl
    cases k2 with
    | trap hS1 => obtain ⟨a1, l1, rfl, hl⟩ := unS hS1; exact ⟨_, a1, _, rfl, rfl⟩
    | trapT hT => obtain ⟨a1, st1, rfl⟩ := unT hT; exact ⟨_, a1, st1, rfl, rfl⟩
    | trapL h => cases h
    | fuelL h => cases h
    | trapR h => exact absurd h id
  · rintro rfl
    cases k1 with
    | fuelR h => cases h
    | trapR h => exact absurd h id
  · rintro rfl
    cases k2 with
    | fuelL h => cases h
    | trapL h => cases h

/-! ## Advice that looks -/

section
variable {t : FuncType} {p q : Nat} {α β : Type} {K : LibLink}

theorem Looks.pure (x : α) : Looks (W := W) (A := A) t p q (pure x) := fun l s ok hs hin hin4 => ⟨x, s.world.2.1, rfl⟩

theorem Looks.bind {a : Act (World W A) α} {k : α → Act (World W A) β} (ha : Looks t p q a) (hk : ∀ x, Looks t p q (k x)) : Looks t p q (a >>= k) := by
  intro l s ok hs hin hin4
  obtain ⟨x, a1, e1⟩ := ha l s ok hs hin hin4
  obtain ⟨y, a2, e2⟩ := hk x l (s.setAnalysis a1) ok hs hin hin4
  refine ⟨y, a2, ?_⟩
  simp only [Bind.bind, Act.bind, e1, e2]
  rfl

/-- The analysis updates its own state. -/
def updateState (g : A → A) : Act (World W A) Unit := fun s => .ok () (s.setAnalysis (g s.world.2.1))

theorem Looks.update (g : A → A) : Looks (W := W) t p q (updateState g) := fun l s ok hs hin hin4 => ⟨(), _, rfl⟩

/-- `args.get_arg(i)`. -/
theorem Looks.getArg (hK : K.Good) (hr : t.RefFree) (hn : t.slots < 8192) {i : Nat} (hi : i < t.inputs.length) :
    Looks (W := W) (A := A) t p q (K.getArg (handle t p) (BitVec.ofNat 32 i)) := by
  intro l s ok hs hin hin4
  have : (l.mem.args t p)[i]? = some _ := List.getElem?_eq_getElem (by simpa [Mem.args, Mem.vals_length] using hi)
  exact ⟨_, s.world.2.1, LibLink.getArg_ok hK ok hs hr.both hn hin this⟩

/-- `ress.get_res(i)`. -/
theorem Looks.getRes (hK : K.Good) (hr : t.RefFree) (hn : t.slots < 8192) {i : Nat} (hi : i < t.results.length) :
    Looks (W := W) (A := A) t p q (K.getRes (handle t p) (BitVec.ofNat 32 i)) := by
  intro l s ok hs hin hin4
  have : (l.mem.ress t p)[i]? = some _ := List.getElem?_eq_getElem (by simpa [Mem.ress, Mem.vals_length] using hi)
  exact ⟨_, s.world.2.1, LibLink.getRes_ok hK ok hs hr.both hn hin this⟩

end

/-- The imports of a program running beside an analysis and the stack library, when they do not call back: they act on the program's
part of the state, which has `tables` tables and `segments` element segments. -/
def Imports.besideTool (H : Imports W) (tables segments : Nat) : Imports (World W A) := fun ns name _ args s =>
  match H ns name (fun _ _ _ => .stuck) args ⟨s.globals, s.mems, s.tables.take tables, s.datas, s.elems.take segments, s.world.1⟩ with
  | .ok vs s1 => .ok vs (s1.extend (s.tables.drop tables) (s.elems.drop segments) (s1.world, s.world.2))
  | .trap s1 => .trap (s1.extend (s.tables.drop tables) (s.elems.drop segments) (s1.world, s.world.2))
  | .stuck => .stuck
  | .fuel => .fuel

/-- Imports that do not call back do the same beside the tool's tables, the analysis and the stack library. -/
theorem ImportsAgreeBeside.plain {m : Module} {H : Imports W} {H' : Imports (World W A)} (T X)
    (hp : ∀ f ∈ m.functions, ∀ ns name, f.code = .imported ns name → PlainImport m.ctx f.type (H ns name) ∧ H' ns name = H.besideTool m.tables.length m.elements.length ns name) :
    ImportsAgreeBeside m T X H H' := by
  intro f hf ns name hc I TR fl fr tl call call' _ args s s' ha hS
  obtain ⟨⟨h1, h2⟩, h3⟩ := hp f hf ns name hc
  obtain ⟨hok, ⟨w, a⟩, ⟨e, hI⟩, rfl⟩ := hS
  dsimp only at e
  subst e
  have hl := tables_length hok
  have hx : s.elems.length = m.elements.length := by
    have := congrArg List.length hok.elems
    simpa [Module.ctx] using this
  have e1 : (⟨(s.extend T X (s.world, a)).globals, (s.extend T X (s.world, a)).mems, (s.extend T X (s.world, a)).tables.take m.tables.length, (s.extend T X (s.world, a)).datas,
      (s.extend T X (s.world, a)).elems.take m.elements.length, (s.extend T X (s.world, a)).world.1⟩ : Store W) = s := by
    simp only [Store.extend, ← hl, ← hx, List.take_left]
  have e2 : (s.extend T X (s.world, a)).tables.drop m.tables.length = T := by simp only [Store.extend, ← hl, List.drop_left]
  have e3 : (s.extend T X (s.world, a)).elems.drop m.elements.length = X := by simp only [Store.extend, ← hx, List.drop_left]
  rw [h3, h1 call (fun _ _ _ => .stuck)]
  simp only [Imports.besideTool]
  rw [e1, e2, e3]
  rcases h2 (fun _ _ _ => .stuck) args s ha hok with ⟨vs, s1, e1, hv, hs1⟩ | ⟨s1, e1, hs1⟩
  · rw [e1]
    exact .ok hv ⟨hs1, (s1.world, a), ⟨rfl, hI⟩, rfl⟩
  · rw [e1]
    exact .trap ⟨hs1, (s1.world, a), ⟨rfl, hI⟩, rfl⟩

/-! ## A program meeting the hypotheses -/

/-- The example program with function application instrumented, by the type checker that annotates it correctly. -/
def exResumed : Instrumented := ((instrument exTypedChecker id id exIfaceApply none exModule).toOption).getD ⟨exModule, none⟩

theorem exResumed_instruments : Instruments exTypedChecker exIfaceApply none exModule exResumed := by
  have h : (match instrument exTypedChecker id id exIfaceApply none exModule with | .ok _ => true | .error _ => false) = true := by decide +kernel
  refine ⟨id, id, fun _ => .rfl, fun _ => .rfl, ?_⟩
  unfold exResumed
  split at h
  · rename_i r hr; rw [hr]; rfl
  · simp at h

/-- The hooks of the example on the library's forwarding analysis. -/
theorem exHooks_forward {A : Type} {base : String → Option Nat} {H : Imports (List RVal × A)}
    (hH : ∀ t, (exIface.trap t).isSome → H "WASTRUMENTATION_ANALYSIS" t.exportName = stdHook (forwardBody exNum base) t) : Forwards exNum exIface (fun _ _ a a' => a' = a) H := by
  refine ⟨?_, ?_⟩
  · intro t e he ho call args s a hty
    refine ⟨_, _, .refl _ _, rfl, ?_⟩
    rw [exIface_documented t e he, show (Trap.export t).name = t.exportName from rfl, hH t (by rw [he]; rfl), forward_shown (Trap.not_performs ho) call args _ hty]
  · intro t e he b k info hd call ops loc s a hk hl hty
    refine ⟨_, rfl, ?_⟩
    rw [exIface_documented t e he, show (Trap.export t).name = t.exportName from rfl, hH t (by rw [he]; rfl), ← execute_withAnalysis hd]
    have hb : ∃ op, b = .binary op := by
      have : t = .ifThenElseTrap ∨ t = .preTrapCall ∨ t = .postTrapCall ∨ t = .binaryI32I32ToI32 := by
        simp only [exIface] at he
        split at he
        · assumption
        · cases he
      cases b <;> try (simp [delegation] at hd; done)
      case binary op => exact ⟨op, rfl⟩
      case unary op =>
        simp only [delegation, Option.map_eq_some_iff, Prod.mk.injEq] at hd
        obtain ⟨t, hd, rfl, rfl, rfl⟩ := hd
        rcases this with rfl | rfl | rfl | rfl <;> cases op <;> simp [unaryTrap, UnaryOp.sig] at hd
      case load op ma =>
        simp only [delegation, Option.map_eq_some_iff, Prod.mk.injEq] at hd
        obtain ⟨t, hd, rfl, rfl, rfl⟩ := hd
        rcases this with rfl | rfl | rfl | rfl <;> cases op <;> simp [loadTrap, LoadOp.ty] at hd
      case store op ma =>
        simp only [delegation, Option.map_eq_some_iff, Prod.mk.injEq] at hd
        obtain ⟨t, hd, rfl, rfl, rfl⟩ := hd
        rcases this with rfl | rfl | rfl | rfl <;> cases op <;> simp [storeTrap, StoreOp.ty] at hd
      case memoryGrow i =>
        simp only [delegation, Option.some.injEq, Prod.mk.injEq] at hd
        obtain ⟨rfl, _⟩ := hd
        simp at this
    obtain ⟨op, rfl⟩ := hb
    simp only [delegation, Option.map_eq_some_iff, Prod.mk.injEq] at hd
    obtain ⟨t, hd, rfl, rfl, rfl⟩ := hd
    obtain ⟨f, i, rfl⟩ : ∃ f i, loc = [f, i] := by
      match loc, hl with
      | [f, i], _ => exact ⟨f, i, rfl⟩
    obtain ⟨v, w, rfl⟩ : ∃ v w, ops = [v, w] := by match ops, hk with | [v, w], _ => exact ⟨v, w, rfl⟩
    rw [(binaryTrap_args hd).1] at hty
    simp only [List.cons_append, List.nil_append, List.map_cons, List.map_nil, List.cons.injEq, and_true] at hty
    obtain ⟨hv, hw, _, hf, hi⟩ := hty
    obtain ⟨f, rfl⟩ := RVal.of_i64 hf
    obtain ⟨i, rfl⟩ := RVal.of_i64 hi
    obtain ⟨v, rfl, hvn⟩ := RVal.type_num hv op.sig_num
    obtain ⟨w, rfl, hwn⟩ := RVal.type_num hw op.sig_num
    simp only [List.cons_append, List.nil_append]
    exact binary_forwarded hd hvn hwn

/-- The library generated for the example. -/
def exResumeLink : LibLink := ⟨libNum, (exResumed.librarySignatures).getD [], 65537, 5⟩

/-- The embedder: the stack library; an analysis that records the first argument of every call and resumes it, and otherwise forwards;
and the embedder's `print`. -/
def exResumer (base : Nat) : Imports (World (List RVal) (List Val)) := fun ns name =>
  if ns = stackModule then libHost exResumeLink.N exResumeLink.sigs exResumeLink.L exResumeLink.d name
  else if ns = analysisModule then
    if name = interfaceGenericApply.1.name then
      around exResumeLink base (fun args _ => do let x ← exResumeLink.getArg args (BitVec.ofNat 32 0); updateState (· ++ [x])) (fun _ _ => pure ())
    else match [Trap.ifThenElseTrap, .preTrapCall, .postTrapCall, .binaryI32I32ToI32].find? fun t => t.exportName == name with
    | some t => stdHook (forwardBody exNum exResumed.module.exported) t
    | none => fun _ _ _ => .stuck
  else exImports.besideTool 1 0 ns name

/-- The table the tool has added, after instantiation. -/
def exToolTable : Table := ⟨.funcRef, [some 37, some 39, some 41], 3⟩

theorem exResumed_sigs : exResumeLink.sigs = [⟨[.i32], []⟩, ⟨[.i32, .i32], [.i32]⟩, ⟨[.i32], [.i32]⟩] := by decide +kernel

theorem exResumer_resuming (base : Nat) :
    Resuming exTypedChecker exIfaceApply none exModule exResumed interfaceGenericApply.1 exResumeLink exNum base [exToolTable] [] 36 exImports (exResumer base) where
  sigs := by decide +kernel
  small := by
    rw [exResumed_sigs]
    intro t ht
    simp only [List.mem_cons, List.not_mem_nil, or_false] at ht
    obtain rfl | rfl | rfl := ht <;> decide
  good := ⟨libNum_stack, by decide, by decide⟩
  lib := fun name => rfl
  forwards := by
    refine ⟨fun _ _ a a' => a' = a, ?_, fun t args a a' h => by rw [h]⟩
    have := exHooks_forward (base := exResumed.module.exported) (H := exResumer base) ?_
    · exact ⟨this.shown, this.performed⟩
    intro t ht
    have ht' : t = .ifThenElseTrap ∨ t = .preTrapCall ∨ t = .postTrapCall ∨ t = .binaryI32I32ToI32 := by
      simp only [exIface] at ht
      split at ht
      · assumption
      · cases ht
    have e1 : t.exportName ≠ interfaceGenericApply.1.name := by rcases ht' with rfl | rfl | rfl | rfl <;> decide +kernel
    have e2 : List.find? (fun u => u.exportName == t.exportName) [Trap.ifThenElseTrap, .preTrapCall, .postTrapCall, .binaryI32I32ToI32] = some t := by
      rcases ht' with rfl | rfl | rfl | rfl <;> decide +kernel
    have e3 : ("WASTRUMENTATION_ANALYSIS" : String) ≠ stackModule := by decide
    simp only [exResumer, e1, e2, e3, if_false, analysisModule, if_true]
  resumes := by
    refine ⟨_, _, around_surrounds ⟨libNum_stack, by decide, by decide⟩ _ _ _, ?_⟩
    intro i hi f hf p q
    have ht : applyTargets exModule none = [0, 1, 2] := by decide +kernel
    rw [ht] at hi
    have hf' : f.type = ⟨[.i32], []⟩ ∨ f.type = ⟨[.i32, .i32], [.i32]⟩ ∨ f.type = ⟨[.i32], [.i32]⟩ := by
      simp only [List.mem_cons, List.not_mem_nil, or_false] at hi
      rcases hi with rfl | rfl | rfl <;> simp [exModule] at hf <;> subst hf <;> simp
    refine ⟨Looks.bind (Looks.getArg ⟨libNum_stack, by decide, by decide⟩ ?_ ?_ ?_) fun x => Looks.update _, Looks.pure _⟩
    · rcases hf' with e | e | e <;> rw [e] <;> simp [FuncType.RefFree]
    · rcases hf' with e | e | e <;> rw [e] <;> decide
    · rcases hf' with e | e | e <;> rw [e] <;> decide
  imports := by
    refine .plain _ _ fun f hf ns name hc => ?_
    simp only [exModule, List.mem_cons, List.not_mem_nil, or_false] at hf
    rcases hf with rfl | rfl | rfl | rfl <;> cases hc
    exact ⟨⟨fun _ _ => rfl, fun call args s ha hs => .inl ⟨_, _, rfl, .nil, hs.world rfl rfl rfl rfl rfl⟩⟩, rfl⟩
  frame := by
    rw [exResumed_sigs]
    intro t ht
    simp only [List.mem_cons, List.not_mem_nil, or_false] at ht
    obtain rfl | rfl | rfl := ht <;> decide

theorem exResumed_intact {A : Type} (s : Store (List RVal)) (hs : s.tables.length = 1) (w : World (List RVal) A) :
    SegmentsIntact exModule exResumed (s.extend [exToolTable] [] w) := by
  have h : exResumed.module.elements = [⟨.funcRef, [[.refFunc 37, .fin], [.refFunc 39, .fin], [.refFunc 41, .fin]], .active 1 [.const (.i32 0), .fin]⟩] := by
    decide +kernel
  rw [SegmentsIntact, h]
  intro el hel tbl hm k f hk
  simp only [exModule, List.length_nil, List.drop_zero, List.mem_singleton] at hel
  subst hel
  cases hm
  refine ⟨exToolTable, ?_, ?_⟩
  · simp only [Store.extend]
    rw [List.getElem?_append_right (by omega)]
    simp [hs]
  · dsimp only [exToolTable] at hk ⊢
    match k with
    | 0 | 1 | 2 => simpa using hk
    | k + 3 => simp at hk

-- C23: all hypotheses hold of the example. With every call (including those of `print`) intercepted, recorded and resumed, `main(0, 5)`
-- prints 7 and returns 49, as in the original, and the stack allocator is back at 0.
example : ∃ base a1 l1, callF exNum (machineOf (exResumer base) exResumed.module.functions) 10 51 1 [.i32 0, .i32 5] (exStore.extend [exToolTable] [] ([], [], exLib.store)) =
    .ok [.i32 49] (Store.extend { exStore with world := [RVal.i32 7] } [exToolTable] [] ([RVal.i32 7], a1, Lib.store l1)) ∧ l1.free = 0 := by
  obtain ⟨base, _, h⟩ := C23_resuming_is_transparent exModule_small (iface := exIfaceApply) exIface_documented.standard exIfaceApply_standard exResumed_instruments rfl exModule_valid exModule_annotated
  obtain ⟨a1, l1, e, _, e1, _⟩ := (h _ _ _ _ _ _ _ _ _ (exResumer_resuming base) 1 _ [.i32 0, .i32 5] exStore [] exLib rfl
    (ValsOK.nil.cons rfl (by simp [RVal.OK]) |>.cons rfl (by simp [RVal.OK])) exStore_ok exLib_ok (by decide) (exResumed_intact _ rfl _) 10 10 (by decide) (by decide)).1 _ _ exModule_runs
  exact ⟨base, a1, l1, e, e1⟩

end Wastrum
