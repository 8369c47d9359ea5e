import Verif.WaspTextThms
import Verif.AsThms

/-!
# Wasp analyses whose guest code does nothing (C80)

`call_indirect.wasp` and `empty.wasp` of the test suite, from their text to the behaviour of the programs instrumented for them. The text of the guest
code is not interpreted (C80 says which parts of AssemblyScript are modelled); what it does is `WaspCode.idle`, as it consists of comments.
-/

namespace Wastrum

open Wasp

/-- **C80.** Guest code that does nothing leaves the program alone, and does not change a state of its own. -/
theorem C80_idle_wasp_mild : ∀ t, (WaspCode.idle : WaspCode (W × A)).Mild (fun a a' => a' = a) t := by
  intro t
  cases t
  all_goals first
    | exact trivial
    | exact fun s a => ⟨(), a, rfl, trivial, rfl⟩
    | exact fun _ s a => ⟨(), a, rfl, trivial, rfl⟩
    | exact fun _ s a => ⟨none, a, rfl, (fun y hy => nomatch hy), rfl⟩
    | exact fun _ _ s a => ⟨none, a, rfl, (fun y hy => nomatch hy), rfl⟩

/-- **C80 (from the text).** For every text of a Wasp analysis that the Wasp compiler accepts and that has no `apply` advice, whatever its other advice:
if its guest code does nothing, a valid program instrumented for it behaves as the original. -/
theorem C80_idle_text_transparent {C iface ts m r} {text : String} {prog : List Wasp.Advice} {joins : JoinPoints} (hc : compile text = .ok (prog, joins))
    (hi : Wasp.interface prog = some iface) (hg : joins.flag .generic = false) (hs : SmallModule m)
    (h : Instruments C iface ts m r) (hv : ValidModule m)
    (hB : ∀ i ∈ bodyTargets m ts, ∀ f, m.functions[i]? = some f → WellAnnotated m f (bodyOf C m i))
    {N : Num} {H : Imports W} {H' : Imports (W × A)}
    (hH : ∀ t, (∃ x ∈ prog, Advises x t) → H' analysisModule t.exportName = WaspCode.idle.host t)
    (hI : ImportsAgree m (fun w (p : W × A) => w = p.1) H H')
    {f : Nat} {ty : FuncType} {args : List RVal} {s : Store W} (hf : m.ctx.ftype f = some ty) (hargs : ValsOK m.ctx args ty.inputs)
    (hok : StoreOK m.ctx s) (a : A) :
    (∀ vs s1, (∃ L d, callF N (machineOf H m.functions) L d f args s = .ok vs s1) ↔
      ∃ L d a1, callF N (machineOf H' r.module.functions) L d f args (s.withAnalysis a) = .ok vs (s1.withAnalysis a1)) ∧
    (∀ s1, (∃ L d, callF N (machineOf H m.functions) L d f args s = .trap s1) ↔
      ∃ L d a1, callF N (machineOf H' r.module.functions) L d f args (s.withAnalysis a) = .trap (s1.withAnalysis a1)) ∧
    ((∀ L d, callF N (machineOf H m.functions) L d f args s = .fuel) ↔
      ∀ L d, callF N (machineOf H' r.module.functions) L d f args (s.withAnalysis a) = .fuel) := by
  obtain ⟨_, hj⟩ : True ∧ joins = joinPoints prog := by
    unfold compile at hc
    split at hc
    · cases hc
    · split at hc
      · cases hc
      · cases hc; exact ⟨trivial, rfl⟩
  refine C80_wasp_analysis_transparent hi (fun hgen => ?_) hs h hv hB (fun t ht => ⟨hH t ht, C80_idle_wasp_mild t⟩) hI hf hargs hok a
  rw [hj, (C35_join_points_exact prog).1.2 hgen] at hg
  cases hg

/-! ### The files -/

/-- The text of `/repo/wastrumentation-instr-lib/tests/analyses/wasp-as/empty.wasp`. -/
def emptyText : String := "(aspect)
"

/-- The text of `/repo/wastrumentation-instr-lib/tests/analyses/wasp-as/call_indirect.wasp`. -/
def callIndirectText : String := "(aspect
    (advice call pre (f FunctionIndex) >>>GUEST>>>
        // No intercession, intercession @ callee site
    <<<GUEST<<<)

    (advice call post (f FunctionIndex) >>>GUEST>>>
        // No intercession, intercession @ callee site
    <<<GUEST<<<)

    (advice call_indirect pre (table FunctionTable)
                                 (index FunctionTableIndex) >>>GUEST>>>
        // No intercession, intercession @ callee site
    <<<GUEST<<<)

    (advice call_indirect post (table FunctionTable) >>>GUEST>>>
        // No intercession, intercession @ callee site
    <<<GUEST<<<))
"

/-- The guest code of all advice of `call_indirect.wasp`: lines 3, 7, 12 and 16. -/
def callIndirectGuest : String := "\n        // No intercession, intercession @ callee site\n    "

/-- What `call_indirect.wasp` is parsed to: `/repo/wastrumentation-instr-lib/tests/analyses/wasp-as/call_indirect.wasp`. -/
def callIndirectProg : List Wasp.Advice :=
  [.plain (.call .pre "f") callIndirectGuest, .plain (.call .post "f") callIndirectGuest,
   .plain (.callIndirectPre "table" "index") callIndirectGuest, .plain (.callIndirectPost "table") callIndirectGuest]

theorem compile_of {text l r} (h : (parse text).toOption = some l) (hr : root l = .ok r) : compile text = .ok (r, joinPoints r) := by
  unfold compile
  cases e : parse text with
  | error _ => rw [e] at h; cases h
  | ok l' => rw [e] at h; cases h; simp only [hr]

theorem emptyText_compiles : compile emptyText = .ok ([], joinPoints []) := compile_of (l := []) (by decide +kernel) rfl

theorem callIndirectText_compiles : compile callIndirectText = .ok (callIndirectProg, joinPoints callIndirectProg) :=
  compile_of (l := [.plain (.call .pre "f") callIndirectGuest, .plain (.call .post "f") callIndirectGuest,
    .plain (.callIndirectPre "table" "index") callIndirectGuest, .plain (.callIndirectPost "table") callIndirectGuest]) (by decide +kernel) rfl

/-- The interface of `call_indirect.wasp`. -/
def exCallIndirectIface : Interface := (Wasp.interface callIndirectProg).getD ⟨none, fun _ => none⟩

/-- The example program instrumented for it. -/
def exCallIndirected : Instrumented := ((instrument exTypedChecker id id exCallIndirectIface none exModule).toOption).getD ⟨exModule, none⟩

/-- The embedder: the advice of `call_indirect.wasp`, and the embedder's `print`. -/
def exCallIndirectHost : Imports (List RVal × Unit) := fun ns name =>
  if ns = analysisModule then
    match [Trap.preTrapCall, .postTrapCall, .preTrapCallIndirect, .postTrapCallIndirect].find? fun t => t.exportName == name with
    | some t => WaspCode.idle.host t
    | none => fun _ _ _ => .stuck
  else exImports.beside Unit ns name

-- C80 (from the text): all hypotheses hold of the example program and the text of `call_indirect.wasp`. `main(0, 5)` prints 7 and returns 49.
example : ∃ L d, callF exNum (machineOf exCallIndirectHost exCallIndirected.module.functions) L d 1 [.i32 0, .i32 5] (exStore.withAnalysis ()) =
    .ok [.i32 49] (Store.withAnalysis { exStore with world := [RVal.i32 7] } ()) := by
  have h : Instruments exTypedChecker exCallIndirectIface none exModule exCallIndirected := by
    have h : (match instrument exTypedChecker id id exCallIndirectIface none exModule with | .ok _ => true | .error _ => false) = true := by decide +kernel
    refine ⟨id, id, fun _ => .rfl, fun _ => .rfl, ?_⟩
    unfold exCallIndirected
    split at h
    · rename_i r hr; rw [hr]; rfl
    · simp at h
  have key := (C80_idle_text_transparent (iface := exCallIndirectIface) callIndirectText_compiles rfl rfl exModule_small h exModule_valid exModule_annotated (N := exNum)
    (H := exImports) (H' := exCallIndirectHost) ?_ ?_ (f := 1) (ty := ⟨[.i32, .i32], [.i32]⟩) (args := [.i32 0, .i32 5]) (s := exStore) rfl
    (ValsOK.nil.cons rfl (by simp [RVal.OK]) |>.cons rfl (by simp [RVal.OK])) exStore_ok ()).1
  · obtain ⟨L, d, a1, e⟩ := (key _ _).1 ⟨10, 10, exModule_runs⟩
    exact ⟨L, d, e⟩
  · rintro t ⟨x, hx, ha⟩
    have ht : t = .preTrapCall ∨ t = .postTrapCall ∨ t = .preTrapCallIndirect ∨ t = .postTrapCallIndirect := by
      simp only [callIndirectProg, List.mem_cons, List.not_mem_nil, or_false] at hx
      rcases hx with rfl | rfl | rfl | rfl <;> cases ha <;> simp
    have e2 : List.find? (fun u => u.exportName == t.exportName) [Trap.preTrapCall, .postTrapCall, .preTrapCallIndirect, .postTrapCallIndirect] = some t := by
      rcases ht with rfl | rfl | rfl | rfl <;> decide +kernel
    simp only [exCallIndirectHost, e2, analysisModule, if_true]
  · refine .plain fun f hf ns name hc => ?_
    simp only [exModule, List.mem_cons, List.not_mem_nil, or_false] at hf
    rcases hf with rfl | rfl | rfl | rfl <;> cases hc
    exact ⟨⟨fun _ _ => rfl, fun call args s ha hs => .inl ⟨_, _, rfl, .nil, hs.world rfl rfl rfl rfl rfl⟩⟩, rfl⟩

-- The text of `empty.wasp` meets the assumptions about the analysis as well; it asks for no instrumentation.
example : ∃ iface, Wasp.interface [] = some iface ∧ (joinPoints []).flag .generic = false ∧ iface.generic = none ∧ ∀ t, iface.trap t = none :=
  ⟨_, rfl, rfl, rfl, fun _ => rfl⟩

end Wastrum
