import Verif.LogText
import Verif.ReportThms
import Verif.MemWatchThms
/-!
# What the logging analysis prints (C91)
-/

set_option linter.unusedSimpArgs false
set_option linter.unusedVariables false

namespace Wastrum

variable {W : Type}

/-- The entries of events, one after the other. -/
def logText (F : FloatText) : List Event → String
  | [] => ""
  | e :: es => (e.text F).getD "" ++ "\n" ++ logText F es

/-- The events in what the analysis gets to know. -/
def eventsOf (remarks : List Remark) : List Event := remarks.filterMap Remark.event

theorem Remark.event_text {F : FloatText} {x : Remark} {e : Event} (h : x.event = some e) : ∃ s, e.text F = some s := by
  rcases x with a | ⟨a, vs⟩
  · cases a <;> cases h <;> exact ⟨_, rfl⟩
  · cases a <;> first | (cases h; done) | skip
    rcases vs with _ | ⟨v, _ | ⟨w, vs⟩⟩
    · cases h
    · cases v <;> cases h; exact ⟨_, rfl⟩
    · cases v <;> cases h

theorem logging_told {F : FloatText} (remarks : List Remark) (out : String) : remarks.foldl (logging F).tell out = out ++ logText F (eventsOf remarks) := by
  induction remarks generalizing out with
  | nil => simp [eventsOf, logText]
  | cons x remarks ih =>
    rw [List.foldl_cons, ih, logging_tell]
    unfold eventsOf
    rw [List.filterMap_cons]
    cases h : x.event with
    | none => rfl
    | some e =>
      obtain ⟨s, hs⟩ := Remark.event_text (F := F) h
      simp only [Option.bind_some, hs, printLine, logText, Option.getD_some, String.append_assoc]

/-- **C91, what is printed.** With the logging analysis the instrumented program does what the original does, and what has been printed at the end is, after what was
printed before, an entry for each event of the original program that the analysis has a hook for, in order and nothing else: the places it came to, with the values there, and the values it
loaded. The proviso on static offsets is that of C48. -/
theorem C91_prints_what_happens {C iface ts m r} {N : Num} {F : FloatText} {T : Imports (W × Account)} {H : Imports (W × String)}
    (hW : Observing C iface ts m r N (logging F) T H)
    (hoff : ∀ i ∈ bodyTargets m ts, ∀ f c, m.functions[i]? = some f → f.code = .present c → OnlyCode (OffsetsAre iface fun o => o = 0) c.body)
    {f : Nat} {ty : FuncType} {args : List RVal} {s : Store W} (hf : m.ctx.ftype f = some ty) (hargs : ValsOK m.ctx args ty.inputs)
    (hok : StoreOK m.ctx s) (out : String) (L d : Nat) :
    (∀ vs (s1 : Store W) (rs : Account), callF N (reported C m (bodyTargets m ts) T) L d f args (s.withAnalysis []) = .ok vs (s1.withAnalysis rs) →
      ∃ remarks, iface.Learns rs remarks ∧
        callF N (machineOf H r.module.functions) L (d + 2) f args (s.withAnalysis out) = .ok vs (s1.withAnalysis (out ++ logText F (eventsOf remarks)))) ∧
    (∀ (s1 : Store W) (rs : Account), callF N (reported C m (bodyTargets m ts) T) L d f args (s.withAnalysis []) = .trap (s1.withAnalysis rs) →
      ∃ remarks, iface.Learns rs remarks ∧
        callF N (machineOf H r.module.functions) L (d + 2) f args (s.withAnalysis out) = .trap (s1.withAnalysis (out ++ logText F (eventsOf remarks)))) ∧
    (∀ vs s1', callF N (machineOf H r.module.functions) L d f args (s.withAnalysis out) = .ok vs s1' →
      ∃ (s1 : Store W) (rs : Account) (remarks : List Remark), callF N (reported C m (bodyTargets m ts) T) L d f args (s.withAnalysis []) = .ok vs (s1.withAnalysis rs) ∧
        iface.Learns rs remarks ∧ s1' = s1.withAnalysis (out ++ logText F (eventsOf remarks))) ∧
    (∀ s1', callF N (machineOf H r.module.functions) L d f args (s.withAnalysis out) = .trap s1' →
      ∃ (s1 : Store W) (rs : Account) (remarks : List Remark), callF N (reported C m (bodyTargets m ts) T) L d f args (s.withAnalysis []) = .trap (s1.withAnalysis rs) ∧
        iface.Learns rs remarks ∧ s1' = s1.withAnalysis (out ++ logText F (eventsOf remarks))) ∧
    callF N (machineOf H r.module.functions) L d f args (s.withAnalysis out) ≠ .stuck := by
  have := C90_observing_exact hW hoff hf hargs hok out L d
  simpa only [logging_told] using this

/-- **C91, for offsets below 2^31** and programs that end normally. -/
theorem C91_prints_results {C iface ts m r} {N : Num} {F : FloatText} {T : Imports (W × Account)} {H : Imports (W × String)}
    (hW : Observing C iface ts m r N (logging F) T H)
    (hoff : ∀ i ∈ bodyTargets m ts, ∀ f c, m.functions[i]? = some f → f.code = .present c → OnlyCode (OffsetsAre iface fun o => o.toNat < 2 ^ 31) c.body)
    {f : Nat} {ty : FuncType} {args : List RVal} {s : Store W} (hf : m.ctx.ftype f = some ty) (hargs : ValsOK m.ctx args ty.inputs)
    (hok : StoreOK m.ctx s) (out : String) (L d : Nat) :
    (∀ vs (s1 : Store W) (rs : Account), callF N (reported C m (bodyTargets m ts) T) L d f args (s.withAnalysis []) = .ok vs (s1.withAnalysis rs) →
      ∃ remarks, iface.Learns rs remarks ∧
        callF N (machineOf H r.module.functions) L (d + 2) f args (s.withAnalysis out) = .ok vs (s1.withAnalysis (out ++ logText F (eventsOf remarks)))) ∧
    (∀ vs s1', callF N (machineOf H r.module.functions) L d f args (s.withAnalysis out) = .ok vs s1' →
      (∃ (s1 : Store W) (rs : Account) (remarks : List Remark), callF N (reported C m (bodyTargets m ts) T) L d f args (s.withAnalysis []) = .ok vs (s1.withAnalysis rs) ∧
        iface.Learns rs remarks ∧ s1' = s1.withAnalysis (out ++ logText F (eventsOf remarks))) ∨
      ∃ s1, callF N (reported C m (bodyTargets m ts) T) L d f args (s.withAnalysis []) = .trap s1) := by
  have := C90_observing_results hW hoff hf hargs hok out L d
  simpa only [logging_told] using this

/-! ## Reading the log -/

/-- Lists of events that are the same but for floating point numbers that are written in the same way. -/
def AlikeEvents (F : FloatText) (es es' : List Event) : Prop :=
  es.length = es'.length ∧ ∀ (i : Nat) (e e' : Event), es[i]? = some e → es'[i]? = some e' → e.Alike F e'

theorem logText_inj {F : FloatText} : ∀ (es es' : List Event), (∀ e ∈ es, ∃ s, e.text F = some s) → (∀ e ∈ es', ∃ s, e.text F = some s) →
    (logText F es).toList = (logText F es').toList → AlikeEvents F es es'
  | [], [], _, _, _ => ⟨rfl, fun i e e' h => by simp at h⟩
  | [], e' :: es', _, _, h => by simp [logText] at h
  | e :: es, [], _, _, h => by simp [logText] at h
  | e :: es, e' :: es', he, he', h => by
    obtain ⟨s, hs⟩ := he e List.mem_cons_self
    obtain ⟨t, ht⟩ := he' e' List.mem_cons_self
    simp only [logText, hs, ht, Option.getD_some] at h
    simp only [String.toList_append] at h
    simp only [List.append_assoc] at h
    obtain ⟨h1, h2⟩ := Event.text_cut hs ht h
    obtain ⟨h3, h4⟩ := logText_inj es es' (fun x hx => he x (List.mem_cons_of_mem _ hx)) (fun x hx => he' x (List.mem_cons_of_mem _ hx)) (List.append_cancel_left h2)
    refine ⟨by simp [h3], fun i x x' hx hx' => ?_⟩
    cases i with
    | zero => cases hx; cases hx'; exact h1
    | succ i => exact h4 i x x' hx hx'

/-- The same text is printed only about the same events. -/
theorem C91_text_tells_events {F : FloatText} {remarks remarks' : List Remark} (h : logText F (eventsOf remarks) = logText F (eventsOf remarks')) :
    AlikeEvents F (eventsOf remarks) (eventsOf remarks') := by
  have ok : ∀ remarks : List Remark, ∀ e ∈ eventsOf remarks, ∃ s, e.text F = some s := by
    intro remarks e he
    obtain ⟨x, _, hx⟩ := List.mem_filterMap.1 he
    exact Remark.event_text hx
  exact logText_inj _ _ (ok _) (ok _) (by rw [h])

/-- **C91, the log can be read back.** If two instrumented programs print the same, from nothing printed, then the two original programs came to the same places with the same values and loaded the
same values, in the same order — the same but for floating point numbers that are written in the same way. -/
theorem C91_same_log_same_events {C iface ts m r C' iface' ts' m' r'} {N N' : Num} {F : FloatText} {W' : Type} {T : Imports (W × Account)} {H : Imports (W × String)}
    {T' : Imports (W' × Account)} {H' : Imports (W' × String)}
    (hW : Observing C iface ts m r N (logging F) T H) (hW' : Observing C' iface' ts' m' r' N' (logging F) T' H')
    (hoff : ∀ i ∈ bodyTargets m ts, ∀ f c, m.functions[i]? = some f → f.code = .present c → OnlyCode (OffsetsAre iface fun o => o = 0) c.body)
    (hoff' : ∀ i ∈ bodyTargets m' ts', ∀ f c, m'.functions[i]? = some f → f.code = .present c → OnlyCode (OffsetsAre iface' fun o => o = 0) c.body)
    {f f' : Nat} {ty ty' : FuncType} {args args' : List RVal} {s : Store W} {s' : Store W'} (hf : m.ctx.ftype f = some ty) (hf' : m'.ctx.ftype f' = some ty')
    (hargs : ValsOK m.ctx args ty.inputs) (hargs' : ValsOK m'.ctx args' ty'.inputs)
    (hok : StoreOK m.ctx s) (hok' : StoreOK m'.ctx s') (L d L' d' : Nat) {vs vs' : List RVal} {s1 : Store W} {s1' : Store W'} {out : String}
    (h : callF N (machineOf H r.module.functions) L d f args (s.withAnalysis "") = .ok vs (s1.withAnalysis out))
    (h' : callF N' (machineOf H' r'.module.functions) L' d' f' args' (s'.withAnalysis "") = .ok vs' (s1'.withAnalysis out)) :
    ∃ (rs rs' : Account) (remarks remarks' : List Remark),
      callF N (reported C m (bodyTargets m ts) T) L d f args (s.withAnalysis []) = .ok vs (s1.withAnalysis rs) ∧
      callF N' (reported C' m' (bodyTargets m' ts') T') L' d' f' args' (s'.withAnalysis []) = .ok vs' (s1'.withAnalysis rs') ∧
      iface.Learns rs remarks ∧ iface'.Learns rs' remarks' ∧ AlikeEvents F (eventsOf remarks) (eventsOf remarks') := by
  obtain ⟨p, rs, remarks, h1, h2, h3⟩ := (C91_prints_what_happens hW hoff hf hargs hok "" L d).2.2.1 _ _ h
  obtain ⟨p', rs', remarks', h1', h2', h3'⟩ := (C91_prints_what_happens hW' hoff' hf' hargs' hok' "" L' d').2.2.1 _ _ h'
  obtain ⟨rfl, e⟩ := withAnalysis_inj h3
  obtain ⟨rfl, e'⟩ := withAnalysis_inj h3'
  refine ⟨rs, rs', remarks, remarks', h1, h1', h2, h2', C91_text_tells_events ?_⟩
  rw [String.empty_append] at e e'
  rw [← e, ← e']

/-- **C91, the labels of locations are exchanged** (as in the test's expected output): an entry about instruction `i` of function `f` says that the instruction index is `f` and the function
index is `i`. -/
theorem C91_labels_exchanged {F : FloatText} {t : Trap} {args : List RVal} {f i : BitVec 64} {a : Advice} (h : stdEntry t (args ++ [.i64 f, .i64 i]) = some a) {vs : List RVal} {s : String}
    (he : a.entry F = some s ∨ a.entryAfter F vs = some s) :
    ∃ before after, s = before ++ ("Location { instr_index: " ++ intText f ++ ", funct_index: " ++ intText i ++ " }") ++ after := by
  obtain ⟨rfl, rfl⟩ := C22_accessors_are_swapped t _ _ _ _ h
  have ends : ∀ (x : String) (l : Location), ∃ before after, x ++ l.at = before ++ l.text ++ after :=
    fun x l => ⟨x ++ "location: ", "", by simp only [Location.at, String.append_assoc, String.append_empty]⟩
  have more : ∀ {x z : String} (y : String), (∃ before after, x = before ++ z ++ after) → ∃ before after, x ++ y = before ++ z ++ after :=
    fun y ⟨b, a, h⟩ => ⟨b, a ++ y, by rw [h, String.append_assoc]⟩
  have key : ∃ before after, s = before ++ a.location.text ++ after := by
    rcases he with he | he
    · cases a <;> simp only [Advice.entry, reduceCtorEq, Option.some.injEq] at he <;> subst he <;>
        first
        | exact ends _ _
        | exact more _ (ends _ _)
    · cases a <;> first | (cases he; done) | skip
      rcases vs with _ | ⟨v, _ | ⟨w, vs⟩⟩
      · cases he
      · cases v <;> cases he
        exact ends _ _
      · cases v <;> cases he
  exact key

/-! ## What an entry says -/

/-- The text occurs in the other. -/
def OccursIn (z s : String) : Prop := ∃ before after, s = before ++ z ++ after

theorem OccursIn.last {z x : String} : OccursIn z (x ++ z) := ⟨x, "", by rw [String.append_empty]⟩
theorem OccursIn.more {z x : String} (h : OccursIn z x) (y : String) : OccursIn z (x ++ y) := by
  obtain ⟨b, a, rfl⟩ := h
  exact ⟨b, a ++ y, by rw [String.append_assoc]⟩

/-- What an entry should say, in words and with the names the library has for things. -/
def Event.facts (F : FloatText) : Event → List String
  | .came (.ifThenElse k n m _) => ["if_ ", pretty "PathContinuation" (intText k), compact "IfThenElseInputCount" (intText n), compact "IfThenElseArity" (intText m)]
  | .came (.ifThenElsePost _) => ["if_post"]
  | .came (.ifThen k n m _) => ["if_then ", pretty "PathContinuation" (intText k), compact "IfThenInputCount" (intText n), compact "IfThenArity" (intText m)]
  | .came (.ifThenPost _) => ["if_then_post"]
  | .came (.br label _) => ["br ", pretty "BranchTargetLabel" (intText label)]
  | .came (.brIf k label _) => ["br_if ", pretty "ParameterBrIfCondition" (intText k), pretty "ParameterBrIfLabel" (intText label)]
  | .came (.brTable t e d _) => ["br_table ", pretty "BranchTableTarget" (intText t), pretty "BranchTableEffective" (intText e), pretty "BranchTableDefault" (intText d)]
  | .came (.select k _) => ["select ", pretty "PathContinuation" (intText k)]
  | .came (.callPre f _) => ["call pre ", pretty "FunctionIndex" (intText f)]
  | .came (.callPost f _) => ["call post ", pretty "FunctionIndex" (intText f)]
  | .came (.callIndirectPre i t _) => ["call_indirect pre ", pretty "FunctionTableIndex" (intText i), pretty "FunctionTable" (intText t)]
  | .came (.callIndirectPost t _) => ["call_indirect post ", pretty "FunctionTable" (intText t)]
  | .came (.unary op v _) => ["unary ", op.variant, v.text F]
  | .came (.binary op v w _) => ["binary ", op.variant, v.text F ++ " " ++ w.text F]
  | .came (.drop _) => ["Drop"]
  | .came (.ret _) => ["Return"]
  | .came (.const v _) => ["const_ ", v.text F]
  | .came (.loc v i op _) => ["local ", v.text F, pretty "LocalIndex" (intText i), op.variant]
  | .came (.glob v i op _) => ["global ", v.text F, pretty "GlobalIndex" (intText i), op.variant]
  | .came (.load _ _ _ _) => []
  | .came (.store i v o op _) => ["store ", op.variant, pretty "StoreOffset" (intText o), pretty "StoreIndex" (intText i), v.text F]
  | .came (.memorySize v i _) => ["memory_size ", v.text F, pretty "MemoryIndex" (intText i)]
  | .came (.memoryGrow v i _) => ["memory_grow ", v.text F, pretty "MemoryIndex" (intText i)]
  | .came (.blockPre n m _) => ["block pre ", compact "BlockInputCount" (intText n), compact "BlockArity" (intText m)]
  | .came (.blockPost _) => ["block post"]
  | .came (.loopPre n m _) => ["loop_ pre ", compact "LoopInputCount" (intText n), compact "LoopArity" (intText m)]
  | .came (.loopPost _) => ["loop_ post"]
  | .loaded i o op v _ => ["load ", op.variant, pretty "LoadOffset" (intText o), pretty "LoadIndex" (intText i), v.text F]

theorem occurs_word {z l x : String} (b a : String) (h : l = b ++ z ++ a) : OccursIn z (l ++ x) := OccursIn.more ⟨b, a, h⟩ x

/-- **C91, what an entry says.** The entry of an event has the name of the instruction and each operand, under the operand's name. -/
theorem C91_entries_say {F : FloatText} {e : Event} {s : String} (h : e.text F = some s) : ∀ z ∈ e.facts F, OccursIn z s := by
  intro z hz
  have pair : ∀ x y z : String, OccursIn (y ++ " " ++ z) (x ++ y ++ " " ++ z) := fun x y z => ⟨x, "", by simp only [String.append_assoc, String.append_empty]⟩
  cases e with
  | loaded i o op v l =>
    cases h
    simp only [Event.facts, List.mem_cons, List.not_mem_nil, or_false] at hz
    rcases hz with rfl | rfl | rfl | rfl | rfl
    · repeat (first | exact occurs_word "[ANALYSIS:] " "generic " (by decide +kernel) | refine OccursIn.more ?_ _)
    · repeat (first | exact OccursIn.last | refine OccursIn.more ?_ _)
    · repeat (first | exact OccursIn.last | refine OccursIn.more ?_ _)
    · repeat (first | exact OccursIn.last | refine OccursIn.more ?_ _)
    · repeat (first | exact OccursIn.last | refine OccursIn.more ?_ _)
  | came a =>
    cases a <;> first | (cases h; done) | skip
    all_goals simp only [Event.text, Advice.entry, Option.some.injEq] at h
    all_goals subst h
    case ifThenElse =>
      simp only [Event.facts, List.mem_cons, List.not_mem_nil, or_false] at hz
      rcases hz with rfl | rfl | rfl | rfl
      · repeat (first | exact occurs_word "[ANALYSIS:] " "" (by decide +kernel) | refine OccursIn.more ?_ _)
      · repeat (first | exact OccursIn.last | refine OccursIn.more ?_ _)
      · repeat (first | exact OccursIn.last | refine OccursIn.more ?_ _)
      · repeat (first | exact OccursIn.last | refine OccursIn.more ?_ _)
    case ifThenElsePost =>
      simp only [Event.facts, List.mem_cons, List.not_mem_nil, or_false] at hz
      subst hz
      repeat (first | exact occurs_word "" " (" (by decide +kernel) | refine OccursIn.more ?_ _)
    case ifThen =>
      simp only [Event.facts, List.mem_cons, List.not_mem_nil, or_false] at hz
      rcases hz with rfl | rfl | rfl | rfl
      · repeat (first | exact occurs_word "[ANALYSIS:] " "" (by decide +kernel) | refine OccursIn.more ?_ _)
      · repeat (first | exact OccursIn.last | refine OccursIn.more ?_ _)
      · repeat (first | exact OccursIn.last | refine OccursIn.more ?_ _)
      · repeat (first | exact OccursIn.last | refine OccursIn.more ?_ _)
    case ifThenPost =>
      simp only [Event.facts, List.mem_cons, List.not_mem_nil, or_false] at hz
      subst hz
      repeat (first | exact occurs_word "" " (" (by decide +kernel) | refine OccursIn.more ?_ _)
    case br =>
      simp only [Event.facts, List.mem_cons, List.not_mem_nil, or_false] at hz
      rcases hz with rfl | rfl
      · repeat (first | exact occurs_word "[ANALYSIS:] " "" (by decide +kernel) | refine OccursIn.more ?_ _)
      · repeat (first | exact OccursIn.last | refine OccursIn.more ?_ _)
    case brIf =>
      simp only [Event.facts, List.mem_cons, List.not_mem_nil, or_false] at hz
      rcases hz with rfl | rfl | rfl
      · repeat (first | exact occurs_word "[ANALYSIS:] " "" (by decide +kernel) | refine OccursIn.more ?_ _)
      · repeat (first | exact OccursIn.last | refine OccursIn.more ?_ _)
      · repeat (first | exact OccursIn.last | refine OccursIn.more ?_ _)
    case brTable =>
      simp only [Event.facts, List.mem_cons, List.not_mem_nil, or_false] at hz
      rcases hz with rfl | rfl | rfl | rfl
      · repeat (first | exact occurs_word "[ANALYSIS:] " "" (by decide +kernel) | refine OccursIn.more ?_ _)
      · repeat (first | exact OccursIn.last | refine OccursIn.more ?_ _)
      · repeat (first | exact OccursIn.last | refine OccursIn.more ?_ _)
      · repeat (first | exact OccursIn.last | refine OccursIn.more ?_ _)
    case select =>
      simp only [Event.facts, List.mem_cons, List.not_mem_nil, or_false] at hz
      rcases hz with rfl | rfl
      · repeat (first | exact occurs_word "[ANALYSIS:] " "" (by decide +kernel) | refine OccursIn.more ?_ _)
      · repeat (first | exact OccursIn.last | refine OccursIn.more ?_ _)
    case callPre =>
      simp only [Event.facts, List.mem_cons, List.not_mem_nil, or_false] at hz
      rcases hz with rfl | rfl
      · repeat (first | exact occurs_word "[ANALYSIS:] " "" (by decide +kernel) | refine OccursIn.more ?_ _)
      · repeat (first | exact OccursIn.last | refine OccursIn.more ?_ _)
    case callPost =>
      simp only [Event.facts, List.mem_cons, List.not_mem_nil, or_false] at hz
      rcases hz with rfl | rfl
      · repeat (first | exact occurs_word "[ANALYSIS:] " "" (by decide +kernel) | refine OccursIn.more ?_ _)
      · repeat (first | exact OccursIn.last | refine OccursIn.more ?_ _)
    case callIndirectPre =>
      simp only [Event.facts, List.mem_cons, List.not_mem_nil, or_false] at hz
      rcases hz with rfl | rfl | rfl
      · repeat (first | exact occurs_word "[ANALYSIS:] " "" (by decide +kernel) | refine OccursIn.more ?_ _)
      · repeat (first | exact OccursIn.last | refine OccursIn.more ?_ _)
      · repeat (first | exact OccursIn.last | refine OccursIn.more ?_ _)
    case callIndirectPost =>
      simp only [Event.facts, List.mem_cons, List.not_mem_nil, or_false] at hz
      rcases hz with rfl | rfl
      · repeat (first | exact occurs_word "[ANALYSIS:] " "" (by decide +kernel) | refine OccursIn.more ?_ _)
      · repeat (first | exact OccursIn.last | refine OccursIn.more ?_ _)
    case unary =>
      simp only [Event.facts, List.mem_cons, List.not_mem_nil, or_false] at hz
      rcases hz with rfl | rfl | rfl
      · repeat (first | exact occurs_word "[ANALYSIS:] " "generic " (by decide +kernel) | refine OccursIn.more ?_ _)
      · repeat (first | exact OccursIn.last | refine OccursIn.more ?_ _)
      · repeat (first | exact OccursIn.last | refine OccursIn.more ?_ _)
    case binary =>
      simp only [Event.facts, List.mem_cons, List.not_mem_nil, or_false] at hz
      rcases hz with rfl | rfl | rfl
      · repeat (first | exact occurs_word "[ANALYSIS:] " "generic " (by decide +kernel) | refine OccursIn.more ?_ _)
      · repeat (first | exact OccursIn.last | refine OccursIn.more ?_ _)
      · refine OccursIn.more (OccursIn.more (pair _ _ _) _) _
    case drop =>
      simp only [Event.facts, List.mem_cons, List.not_mem_nil, or_false] at hz
      subst hz
      repeat (first | exact occurs_word "[ANALYSIS:] " " called! " (by decide +kernel) | refine OccursIn.more ?_ _)
    case ret =>
      simp only [Event.facts, List.mem_cons, List.not_mem_nil, or_false] at hz
      subst hz
      repeat (first | exact occurs_word "[ANALYSIS:] " " called! " (by decide +kernel) | refine OccursIn.more ?_ _)
    case const =>
      simp only [Event.facts, List.mem_cons, List.not_mem_nil, or_false] at hz
      rcases hz with rfl | rfl
      · repeat (first | exact occurs_word "[ANALYSIS:] " "generic " (by decide +kernel) | refine OccursIn.more ?_ _)
      · repeat (first | exact OccursIn.last | refine OccursIn.more ?_ _)
    case loc =>
      simp only [Event.facts, List.mem_cons, List.not_mem_nil, or_false] at hz
      rcases hz with rfl | rfl | rfl | rfl
      · repeat (first | exact occurs_word "[ANALYSIS:] " "generic " (by decide +kernel) | refine OccursIn.more ?_ _)
      · repeat (first | exact OccursIn.last | refine OccursIn.more ?_ _)
      · repeat (first | exact OccursIn.last | refine OccursIn.more ?_ _)
      · repeat (first | exact OccursIn.last | refine OccursIn.more ?_ _)
    case glob =>
      simp only [Event.facts, List.mem_cons, List.not_mem_nil, or_false] at hz
      rcases hz with rfl | rfl | rfl | rfl
      · repeat (first | exact occurs_word "[ANALYSIS:] " "generic " (by decide +kernel) | refine OccursIn.more ?_ _)
      · repeat (first | exact OccursIn.last | refine OccursIn.more ?_ _)
      · repeat (first | exact OccursIn.last | refine OccursIn.more ?_ _)
      · repeat (first | exact OccursIn.last | refine OccursIn.more ?_ _)
    case store =>
      simp only [Event.facts, List.mem_cons, List.not_mem_nil, or_false] at hz
      rcases hz with rfl | rfl | rfl | rfl | rfl
      · repeat (first | exact occurs_word "[ANALYSIS:] " "generic " (by decide +kernel) | refine OccursIn.more ?_ _)
      · repeat (first | exact OccursIn.last | refine OccursIn.more ?_ _)
      · repeat (first | exact OccursIn.last | refine OccursIn.more ?_ _)
      · repeat (first | exact OccursIn.last | refine OccursIn.more ?_ _)
      · repeat (first | exact OccursIn.last | refine OccursIn.more ?_ _)
    case memorySize =>
      simp only [Event.facts, List.mem_cons, List.not_mem_nil, or_false] at hz
      rcases hz with rfl | rfl | rfl
      · repeat (first | exact occurs_word "[ANALYSIS:] " "" (by decide +kernel) | refine OccursIn.more ?_ _)
      · repeat (first | exact OccursIn.last | refine OccursIn.more ?_ _)
      · repeat (first | exact OccursIn.last | refine OccursIn.more ?_ _)
    case memoryGrow =>
      simp only [Event.facts, List.mem_cons, List.not_mem_nil, or_false] at hz
      rcases hz with rfl | rfl | rfl
      · repeat (first | exact occurs_word "[ANALYSIS:] " "" (by decide +kernel) | refine OccursIn.more ?_ _)
      · repeat (first | exact OccursIn.last | refine OccursIn.more ?_ _)
      · repeat (first | exact OccursIn.last | refine OccursIn.more ?_ _)
    case blockPre =>
      simp only [Event.facts, List.mem_cons, List.not_mem_nil, or_false] at hz
      rcases hz with rfl | rfl | rfl
      · repeat (first | exact occurs_word "[ANALYSIS:] " "[block_input_count: " (by decide +kernel) | refine OccursIn.more ?_ _)
      · repeat (first | exact OccursIn.last | refine OccursIn.more ?_ _)
      · repeat (first | exact OccursIn.last | refine OccursIn.more ?_ _)
    case blockPost =>
      simp only [Event.facts, List.mem_cons, List.not_mem_nil, or_false] at hz
      subst hz
      repeat (first | exact occurs_word "[ANALYSIS:] " ", " (by decide +kernel) | refine OccursIn.more ?_ _)
    case loopPre =>
      simp only [Event.facts, List.mem_cons, List.not_mem_nil, or_false] at hz
      rcases hz with rfl | rfl | rfl
      · repeat (first | exact occurs_word "[ANALYSIS:] " "[loop_input_count: " (by decide +kernel) | refine OccursIn.more ?_ _)
      · repeat (first | exact OccursIn.last | refine OccursIn.more ?_ _)
      · repeat (first | exact OccursIn.last | refine OccursIn.more ?_ _)
    case loopPost =>
      simp only [Event.facts, List.mem_cons, List.not_mem_nil, or_false] at hz
      subst hz
      repeat (first | exact occurs_word "[ANALYSIS:] " ", " (by decide +kernel) | refine OccursIn.more ?_ _)

/-! ## Examples -/

/-- Some way of writing floating point numbers. -/
def exFloatText : FloatText := ⟨fun _ => "0.0", fun _ => "0.0", fun _ => by decide, fun _ => by decide⟩

/-- What the logging analysis prints about `main(8)` of the program that accesses memory. -/
def exMemLog : String :=
  "[ANALYSIS:] store generic I32Store8 @ (CONST StoreOffset(\n    3,\n) + StoreIndex(\n    8,\n)) <- I32(\n    5,\n), location: Location { instr_index: 0, funct_index: 2 }\n" ++
  "[ANALYSIS:] load generic I32Load16U @ (CONST LoadOffset(\n    2,\n) + LoadIndex(\n    8,\n)) -> I32(\n    1280,\n), location: Location { instr_index: 0, funct_index: 4 }\n"

-- C91: the two accesses to memory are printed, with the value loaded.
example : ∃ r, Instruments exTypedChecker exMemIface none exMem r ∧ ∃ s1 : Store Unit,
    callF exNum (machineOf (exMemImports ((logging exFloatText).body exNum r.module.exported)) r.module.functions) 10 12 0 [.i32 8] (exMemStore.withAnalysis "") =
      .ok [.i32 1280] (s1.withAnalysis exMemLog) := by
  obtain ⟨r, hr⟩ := exMem_instruments
  obtain ⟨s1, rs, h, hl⟩ := exMem_reported8
  obtain ⟨remarks, h1, h2⟩ := (C91_prints_results (exMem_observing (logging exFloatText) hr) exMem_offsets (f := 0) rfl
    (ValsOK.nil.cons rfl (by simp [RVal.OK])) exMemStore_ok "" 10 10).1 _ _ _ h
  refine ⟨r, hr, s1, ?_⟩
  have e : logText exFloatText (eventsOf exMemRemarks) = exMemLog := by decide +kernel
  rw [h2, exMem_learns hl h1, e, String.empty_append]

/-- The remarks about `main(0, 5)` of the program with calls. -/
def exCallRemarks : List Remark := [
  .told (.ifThenElse 0 0 1 (.new 1 1)), .told (.callPre 2 (.new 1 5)), .told (.callPre 0 (.new 2 1)), .told (.callPost 0 (.new 2 1)),
  .told (.binary .i32Mul (.i32 7) (.i32 7) (.new 2 4)), .got (.binary .i32Mul (.i32 7) (.i32 7) (.new 2 4)) [.i32 49], .told (.callPost 2 (.new 1 5))]

def exCallRun : Option (List RVal × List RVal × Account) :=
  match callF exNum (reported exTypedChecker exModule (bodyTargets exModule none) (exImports.beside Account)) 10 10 1 [.i32 0, .i32 5] (exStore.withAnalysis []) with
  | .ok vs s => some (vs, s.world.1, s.world.2.filter fun r => (exIface.trap r.trap).isSome)
  | _ => none

def exCallReports : Account := [
  .asked .ifThenElseTrap [.i32 0, .i32 0, .i32 1, .i64 1, .i64 1], .asked .preTrapCall [.i32 2, .i64 1, .i64 5], .asked .preTrapCall [.i32 0, .i64 2, .i64 1],
  .asked .postTrapCall [.i32 0, .i64 2, .i64 1], .asked .binaryI32I32ToI32 [.i32 7, .i32 7, .i32 BinaryOp.i32Mul.serialize, .i64 2, .i64 4],
  .done .binaryI32I32ToI32 [.i32 7, .i32 7, .i32 BinaryOp.i32Mul.serialize, .i64 2, .i64 4] [.i32 49], .asked .postTrapCall [.i32 2, .i64 1, .i64 5]]

theorem exCallRun_is : exCallRun = some ([.i32 49], [.i32 7], exCallReports) := by decide +kernel

theorem exCall_reported : ∃ (s1 : Store (List RVal)) (rs : Account),
    callF exNum (reported exTypedChecker exModule (bodyTargets exModule none) (exImports.beside Account)) 10 10 1 [.i32 0, .i32 5] (exStore.withAnalysis []) =
      .ok [.i32 49] (s1.withAnalysis rs) ∧ rs.filter (fun r => (exIface.trap r.trap).isSome) = exCallReports := by
  have h := exCallRun_is
  unfold exCallRun at h
  generalize callF exNum (reported exTypedChecker exModule (bodyTargets exModule none) (exImports.beside Account)) 10 10 1 [.i32 0, .i32 5] (exStore.withAnalysis []) = o at h ⊢
  cases o with
  | ok vs s =>
    simp only [Option.some.injEq, Prod.mk.injEq] at h
    exact ⟨{ s with world := s.world.1 }, s.world.2, by rw [h.1]; rfl, h.2.2⟩
  | _ => cases h

theorem exCall_learns {rs : Account} (h : rs.filter (fun r => (exIface.trap r.trap).isSome) = exCallReports) {remarks : List Remark} (hl : exIface.Learns rs remarks) :
    remarks = exCallRemarks := by
  unfold Interface.Learns at hl
  rw [h] at hl
  have e : exCallReports.map Report.remark = exCallRemarks.map some := by rfl
  rw [e] at hl
  exact ((List.map_inj_right (fun _ _ h => Option.some.inj h)).1 hl).symm

/-- What the logging analysis prints about it. -/
def exCallLog : String :=
  "[ANALYSIS:] if_ PathContinuation(\n    0,\n) [if_then_else_input_c: IfThenElseInputCount(0), if_then_else_arity: IfThenElseArity(1), location: Location { instr_index: 1, funct_index: 1 }]\n" ++
  "[ANALYSIS:] call pre FunctionIndex(\n    2,\n), location: Location { instr_index: 1, funct_index: 5 }\n" ++
  "[ANALYSIS:] call pre FunctionIndex(\n    0,\n), location: Location { instr_index: 2, funct_index: 1 }\n" ++
  "[ANALYSIS:] call post FunctionIndex(\n    0,\n), location: Location { instr_index: 2, funct_index: 1 }\n" ++
  "[ANALYSIS:] binary generic I32Mul I32(\n    7,\n) I32(\n    7,\n), location: Location { instr_index: 2, funct_index: 4 }\n" ++
  "[ANALYSIS:] call post FunctionIndex(\n    2,\n), location: Location { instr_index: 1, funct_index: 5 }\n"

theorem exCall_printed {r} (hr : Instruments exTypedChecker exIface none exModule r) : ∃ s1 : Store (List RVal),
    callF exNum (machineOf (exObserved (logging exFloatText) r.module.exported) r.module.functions) 10 12 1 [.i32 0, .i32 5] (exStore.withAnalysis "") =
      .ok [.i32 49] (s1.withAnalysis exCallLog) := by
  obtain ⟨s1, rs, h, hl⟩ := exCall_reported
  obtain ⟨remarks, h1, h2⟩ := (C91_prints_what_happens (exObserving (logging exFloatText) hr) (exOffsets _) (f := 1) rfl
    (ValsOK.nil.cons rfl (by simp [RVal.OK]) |>.cons rfl (by simp [RVal.OK])) exStore_ok "" 10 10).1 _ _ _ h
  refine ⟨s1, ?_⟩
  have e : logText exFloatText (eventsOf exCallRemarks) = exCallLog := by decide +kernel
  rw [h2, exCall_learns hl h1, e, String.empty_append]

-- C91: calls, choices and operations are printed.
example : ∃ r, Instruments exTypedChecker exIface none exModule r ∧ ∃ s1 : Store (List RVal),
    callF exNum (machineOf (exObserved (logging exFloatText) r.module.exported) r.module.functions) 10 12 1 [.i32 0, .i32 5] (exStore.withAnalysis "") =
      .ok [.i32 49] (s1.withAnalysis exCallLog) := by
  obtain ⟨r, hr⟩ := instruments_of_ok (C := exTypedChecker) (iface := exIface) (ts := none) (m := exModule) (by decide) exModule_small exModule_raises_typed
  exact ⟨r, hr, exCall_printed hr⟩

-- C91, the log can be read back: whatever call of the program prints this text came by those places.
example : ∃ r, Instruments exTypedChecker exIface none exModule r ∧
    ∀ (p q : BitVec 32) (L d : Nat) (vs : List RVal) (s1 : Store (List RVal)),
      callF exNum (machineOf (exObserved (logging exFloatText) r.module.exported) r.module.functions) L d 1 [.i32 p, .i32 q] (exStore.withAnalysis "") = .ok vs (s1.withAnalysis exCallLog) →
      ∃ rs remarks, callF exNum (reported exTypedChecker exModule (bodyTargets exModule none) (exImports.beside Account)) L d 1 [.i32 p, .i32 q] (exStore.withAnalysis []) = .ok vs (s1.withAnalysis rs) ∧
        exIface.Learns rs remarks ∧ AlikeEvents exFloatText (eventsOf remarks) (eventsOf exCallRemarks) := by
  obtain ⟨r, hr⟩ := instruments_of_ok (C := exTypedChecker) (iface := exIface) (ts := none) (m := exModule) (by decide) exModule_small exModule_raises_typed
  refine ⟨r, hr, fun p q L d vs s1 h => ?_⟩
  obtain ⟨s1', rs, remarks, h1, h2, h3⟩ := (C91_prints_what_happens (exObserving (logging exFloatText) hr) (exOffsets _) (f := 1) rfl
    (ValsOK.nil.cons rfl (by simp [RVal.OK]) |>.cons rfl (by simp [RVal.OK])) exStore_ok "" L d).2.2.1 _ _ h
  obtain ⟨rfl, e⟩ := withAnalysis_inj h3
  refine ⟨rs, remarks, h1, h2, C91_text_tells_events ?_⟩
  rw [String.empty_append] at e
  rw [← e]
  decide +kernel

-- ... of two calls:
example : ∃ r, Instruments exTypedChecker exIface none exModule r ∧
    ∀ (p q : BitVec 32) (L d : Nat) (vs : List RVal) (s1 : Store (List RVal)),
      callF exNum (machineOf (exObserved (logging exFloatText) r.module.exported) r.module.functions) L d 1 [.i32 p, .i32 q] (exStore.withAnalysis "") = .ok vs (s1.withAnalysis exCallLog) →
      ∃ rs rs' remarks remarks', exIface.Learns rs remarks ∧ exIface.Learns rs' remarks' ∧
        callF exNum (reported exTypedChecker exModule (bodyTargets exModule none) (exImports.beside Account)) L d 1 [.i32 p, .i32 q] (exStore.withAnalysis []) = .ok vs (s1.withAnalysis rs) ∧
        AlikeEvents exFloatText (eventsOf remarks) (eventsOf remarks') := by
  obtain ⟨r, hr⟩ := instruments_of_ok (C := exTypedChecker) (iface := exIface) (ts := none) (m := exModule) (by decide) exModule_small exModule_raises_typed
  refine ⟨r, hr, fun p q L d vs s1 h => ?_⟩
  obtain ⟨s1', h'⟩ := exCall_printed hr
  obtain ⟨rs, rs', remarks, remarks', e1, e2, e3, e4, e5⟩ := C91_same_log_same_events (exObserving (logging exFloatText) hr) (exObserving (logging exFloatText) hr) (exOffsets _) (exOffsets _)
    (f := 1) (f' := 1) rfl rfl (ValsOK.nil.cons rfl (by simp [RVal.OK]) |>.cons rfl (by simp [RVal.OK])) (ValsOK.nil.cons rfl (by simp [RVal.OK]) |>.cons rfl (by simp [RVal.OK]))
    exStore_ok exStore_ok L d 10 12 h h'
  exact ⟨rs, rs', remarks, remarks', e3, e4, e1, e5⟩

-- C91, the labels: of a call by instruction 5 of function 1.
example : (Advice.callPre 2 (.new 1 5)).entry exFloatText = some "[ANALYSIS:] call pre FunctionIndex(\n    2,\n), location: Location { instr_index: 1, funct_index: 5 }" := by decide +kernel

-- C91, what an entry says: of the load of `main(8)`.
example : ∃ s, (Event.loaded 8 2 .i32Load16U (.i32 1280) (.new 0 4)).text exFloatText = some s ∧ OccursIn "LoadIndex(\n    8,\n)" s ∧ OccursIn "I32(\n    1280,\n)" s := by
  refine ⟨_, rfl, C91_entries_say (e := .loaded 8 2 .i32Load16U (.i32 1280) (.new 0 4)) (F := exFloatText) rfl _ ?_, C91_entries_say (e := .loaded 8 2 .i32Load16U (.i32 1280) (.new 0 4)) (F := exFloatText) rfl _ ?_⟩
  · have : "LoadIndex(\n    8,\n)" = pretty "LoadIndex" (intText 8#32) := by decide +kernel
    rw [this]; exact .tail _ (.tail _ (.tail _ (.head _)))
  · have : "I32(\n    1280,\n)" = Val.text exFloatText (.i32 1280) := by decide +kernel
    rw [this]; exact .tail _ (.tail _ (.tail _ (.tail _ (.head _))))

-- C91, the log can be read back: events with different operands are printed differently.
example : ¬ AlikeEvents exFloatText [.came (.callPre 2 (.new 1 5))] [.came (.callPre 3 (.new 1 5))] := by
  rintro ⟨_, h⟩
  have := h 0 _ _ rfl rfl
  cases this

-- ... and all floating point numbers written in the same way cannot be told apart.
example : logText exFloatText (eventsOf [.told (.const (.f32 0x7fc00000#32) (.new 0 0))]) = logText exFloatText (eventsOf [.told (.const (.f32 0x7fc00001#32) (.new 0 0))]) := rfl

end Wastrum
