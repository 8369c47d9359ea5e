import Verif.Judge
import Verif.TraceThms
/-!
# Runs that are stopped when they leave a given log (supporting lemmas for C67)

To show what an analysis does in the course of a run whose events are known at the end, the run is compared with one that stops (as if out
of bounds) at the first event that is not the next event of the given log `F`. A run that ends with log `F` is not stopped.
-/

set_option linter.unusedSimpArgs false
set_option linter.unusedVariables false

namespace Wastrum

variable {W ε : Type} {F : List ε}

/-- Logs only grow. -/
def growing (W ε : Type) : Evolution (W × List ε) where
  done := fun w w' => w.2 <+: w'.2
  cut := fun w w' => w.2 <+: w'.2
  refl := fun _ => List.prefix_refl _
  trans := fun h1 h2 => List.IsPrefix.trans h1 h2
  cut_trans := fun h1 h2 => List.IsPrefix.trans h1 h2
  cut_of := fun h => h

/-- The outcome has a log that is no beginning of `F`. -/
def OutLeft (F : List ε) : Out (W × List ε) → Prop
  | .norm c | .br _ c | .ret c => ¬ c.store.world.2 <+: F
  | .trap s => ¬ s.world.2 <+: F
  | .stuck | .fuel => True

/-- The outcome has a log that is no beginning of `F`. -/
def ResLeft (F : List ε) : Res (W × List ε) → Prop
  | .ok _ s | .trap s => ¬ s.world.2 <+: F
  | .stuck | .fuel => True

/-- The first outcome is the second, or was stopped because the second leaves `F`. -/
def OutFollows (F : List ε) (o' o : Out (W × List ε)) : Prop := o' = o ∨ o' = .fuel ∧ OutLeft F o
/-- The first outcome is the second, or was stopped because the second leaves `F`. -/
def ResFollows (F : List ε) (o' o : Res (W × List ε)) : Prop := o' = o ∨ o' = .fuel ∧ ResLeft F o

/-- Code that follows other code. -/
def Tracks (F : List ε) (f' f : Cfg (W × List ε) → Out (W × List ε)) : Prop := Evolves (growing W ε) f ∧ ∀ c, OutFollows F (f' c) (f c)

/-- Calls that follow other calls. -/
def CallTracks (F : List ε) (call' call : Nat → List RVal → Store (W × List ε) → Res (W × List ε)) : Prop :=
  CallEvolves (growing W ε) call ∧ ∀ f args s, ResFollows F (call' f args s) (call f args s)

/-- The imported functions pass on that a function they call back is stopped. -/
def PassesCuts (m : Module) (T : Imports (W × List ε)) : Prop :=
  ∀ f ∈ m.functions, ∀ ns name, f.code = .imported ns name → ∀ F call' call, CallTracks F call' call →
    ∀ args s, ResFollows F (T ns name call' args s) (T ns name call args s)

theorem PassesCuts.beside {m : Module} (H : Imports W) : PassesCuts m (H.beside (List ε)) := by
  intro f hf ns name hc F call' call _ args s
  exact .inl rfl

theorem not_prefix {l l' : List ε} (h : ¬ l <+: F) (hl : l <+: l') : ¬ l' <+: F := fun h' => h (hl.trans h')

theorem OutLeft.of_evolves {w : W × List ε} (h : ¬ w.2 <+: F) {o : Out (W × List ε)} (ho : (growing W ε).Out w o) : OutLeft F o := by
  cases o <;> first | exact not_prefix h ho | trivial

theorem ResLeft.of_evolves {w : W × List ε} (h : ¬ w.2 <+: F) {o : Res (W × List ε)} (ho : (growing W ε).Res w o) : ResLeft F o := by
  cases o <;> first | exact not_prefix h ho | trivial

theorem OutFollows.bind {o' o : Out (W × List ε)} {k' k : Cfg (W × List ε) → Out (W × List ε)} (h : OutFollows F o' o) (hk : Tracks F k' k) :
    OutFollows F (o'.bind k') (o.bind k) := by
  rcases h with rfl | ⟨rfl, h⟩
  · cases o' with
    | norm c => exact hk.2 c
    | _ => exact .inl rfl
  · refine .inr ⟨rfl, ?_⟩
    cases o with
    | norm c => exact OutLeft.of_evolves h (hk.1 c)
    | _ => exact h

theorem Tracks.norm : Tracks F (W := W) Out.norm Out.norm := ⟨Evolves.norm, fun _ => .inl rfl⟩

theorem Tracks.bind {f' f k' k : Cfg (W × List ε) → Out (W × List ε)} (hf : Tracks F f' f) (hk : Tracks F k' k) :
    Tracks F (fun c => (f' c).bind k') (fun c => (f c).bind k) := ⟨hf.1.bind hk.1, fun c => (hf.2 c).bind hk⟩

theorem Tracks.inBlock {f' f : Cfg (W × List ε) → Out (W × List ε)} (hf : Tracks F f' f) (t : FuncType) : Tracks F (inBlock t f') (inBlock t f) := by
  refine ⟨hf.1.inBlock t, fun c => ?_⟩
  unfold Wastrum.inBlock
  split
  · have := hf.2 { c with stack := c.stack.take t.inputs.length }
    generalize f { c with stack := c.stack.take t.inputs.length } = o at this ⊢
    generalize f' { c with stack := c.stack.take t.inputs.length } = o' at this ⊢
    rcases this with rfl | ⟨rfl, h⟩
    · exact .inl rfl
    · refine .inr ⟨rfl, ?_⟩
      cases o with
      | br l c' =>
        cases l with
        | zero => dsimp only; split <;> first | exact h | trivial
        | succ l => exact h
      | _ => exact h
  · exact .inl rfl

theorem Tracks.iterate {f' f : Cfg (W × List ε) → Out (W × List ε)} (hf : Tracks F f' f) (t : FuncType) (n : Nat) : Tracks F (iterate t f' n) (iterate t f n) := by
  induction n with
  | zero => exact ⟨hf.1.iterate t 0, fun c => .inl rfl⟩
  | succ n ih =>
    refine ⟨hf.1.iterate t _, fun c => ?_⟩
    have := hf.2 c
    unfold Wastrum.iterate
    generalize f c = o at this ⊢
    generalize f' c = o' at this ⊢
    rcases this with rfl | ⟨rfl, h⟩
    · cases o' with
      | br l c' =>
        cases l with
        | zero =>
          dsimp only
          split
          · exact ih.2 _
          · exact .inl rfl
        | succ l => exact .inl rfl
      | _ => exact .inl rfl
    · refine .inr ⟨rfl, ?_⟩
      cases o with
      | br l c' =>
        cases l with
        | zero =>
          dsimp only
          split
          · exact OutLeft.of_evolves h (ih.1 { c' with stack := c'.stack.take t.inputs.length })
          · trivial
        | succ l => exact h
      | _ => exact h

theorem Tracks.inLoop {f' f : Cfg (W × List ε) → Out (W × List ε)} (hf : Tracks F f' f) (t : FuncType) (L : Nat) : Tracks F (inLoop t f' L) (inLoop t f L) := by
  refine ⟨hf.1.inLoop t L, fun c => ?_⟩
  unfold Wastrum.inLoop
  split
  · have := (hf.iterate t L).2 { c with stack := c.stack.take t.inputs.length }
    generalize Wastrum.iterate t f L { c with stack := c.stack.take t.inputs.length } = o at this ⊢
    generalize Wastrum.iterate t f' L { c with stack := c.stack.take t.inputs.length } = o' at this ⊢
    rcases this with rfl | ⟨rfl, h⟩
    · exact .inl rfl
    · exact .inr ⟨rfl, by cases o <;> exact h⟩
  · exact .inl rfl

theorem Tracks.branchOn {f' f g' g : Cfg (W × List ε) → Out (W × List ε)} (hf : Tracks F f' f) (hg : Tracks F g' g) : Tracks F (branchOn f' g') (branchOn f g) := by
  refine ⟨hf.1.branchOn hg.1, fun c => ?_⟩
  unfold Wastrum.branchOn
  split
  · split
    · exact hg.2 _
    · exact hf.2 _
  · exact .inl rfl

/-- Two environments that differ in what calls do only. -/
structure EnvTracks (F : List ε) (E' E : Env (W × List ε)) : Prop where
  num : E'.num = E.num
  ftype : E'.ftype = E.ftype
  loopFuel : E'.loopFuel = E.loopFuel
  calls : CallTracks F E'.callF E.callF

theorem doCall_tracks {E' E : Env (W × List ε)} (hE : EnvTracks F E' E) (f : Nat) (ty : FuncType) : Tracks F (doCall E' f ty) (doCall E f ty) := by
  refine ⟨doCall_evolves hE.calls.1 f ty, fun c => ?_⟩
  unfold doCall
  split
  · have := hE.calls.2 f (c.stack.take ty.inputs.length).reverse c.store
    generalize E.callF f (c.stack.take ty.inputs.length).reverse c.store = r at this ⊢
    generalize E'.callF f (c.stack.take ty.inputs.length).reverse c.store = r' at this ⊢
    rcases this with rfl | ⟨rfl, h⟩
    · exact .inl rfl
    · refine .inr ⟨rfl, ?_⟩
      cases r with
      | ok vs s => dsimp only; split <;> first | exact h | trivial
      | _ => exact h
  · exact .inl rfl

theorem step_tracks {E' E : Env (W × List ε)} (hE : EnvTracks F E' E) (b : Basic) : Tracks F (step E' b) (step E b) := by
  refine ⟨step_evolves hE.calls.1 b, fun c => ?_⟩
  have eq : ∀ {o' o : Out (W × List ε)}, o' = o → OutFollows F o' o := .inl
  cases b
  case call f =>
    simp only [step, hE.ftype]
    split
    · exact (doCall_tracks hE _ _).2 c
    · exact .inl rfl
  case callIndirect ty tbl =>
    simp only [step, hE.ftype]
    split
    · split
      · split
        · split
          · exact (doCall_tracks hE _ _).2 _
          · exact .inl rfl
        · exact .inl rfl
      · exact .inl rfl
    · exact .inl rfl
  case loc op i => cases op <;> exact .inl rfl
  case glob op i => cases op <;> exact .inl rfl
  all_goals first | exact .inl rfl | (refine eq ?_; simp only [step, hE.num, hE.ftype])

theorem den_tracks {E' E : Env (W × List ε)} (hE : EnvTracks F E' E) :
    (∀ i : HI, Tracks F (denI E' i) (denI E i)) ∧ ∀ l : List HI, Tracks F (denL E' l) (denL E l) := by
  have hN : Tracks F (W := W) Out.norm Out.norm := .norm
  apply HI.induct
  · intro b; simpa only [denI] using step_tracks hE b
  · intro t body ih; simpa only [denI] using ih.inBlock t
  · intro t body ih; simpa only [denI, hE.loopFuel] using ih.inLoop t _
  · intro t thn ih; simpa only [denI] using (ih.inBlock t).branchOn (hN.inBlock t)
  · intro t thn els ih1 ih2; simpa only [denI] using (ih1.inBlock t).branchOn (ih2.inBlock t)
  · simpa only [denL] using hN
  · intro i l h1 h2; simpa only [denL] using h1.bind h2

theorem denFlat_tracks {E' E : Env (W × List ε)} (hE : EnvTracks F E' E) (l : List LInstr) : Tracks F (denFlat E' l) (denFlat E l) := by
  refine ⟨denFlat_evolves hE.calls.1 l, fun c => ?_⟩
  unfold denFlat
  split
  · exact ((den_tracks hE).2 _).2 c
  · exact .inl rfl

theorem runBody_tracks {f' f : Cfg (W × List ε) → Out (W × List ε)} (hf : Tracks F f' f) (ty : FuncType) (locals : List ValType) (args : List RVal) (s : Store (W × List ε)) :
    ResFollows F (runBody ty locals f' args s) (runBody ty locals f args s) := by
  unfold runBody
  have := hf.2 ⟨[], args ++ locals.map ValType.zero, s⟩
  generalize f ⟨[], args ++ locals.map ValType.zero, s⟩ = o at this ⊢
  generalize f' ⟨[], args ++ locals.map ValType.zero, s⟩ = o' at this ⊢
  rcases this with rfl | ⟨rfl, h⟩
  · exact .inl rfl
  · refine .inr ⟨rfl, ?_⟩
    cases o with
    | br l c' =>
      cases l with
      | zero => dsimp only; split <;> first | exact h | trivial
      | succ l => trivial
    | norm c' => dsimp only; split <;> first | exact h | trivial
    | ret c' => dsimp only; split <;> first | exact h | trivial
    | _ => exact h

/-! ## Annotated code -/

/-- The questions and operations of one way to execute code follow those of another. -/
structure AskTracks (F : List ε) (A' A : Asker (W × List ε)) : Prop where
  ask : ∀ m t k info, Tracks F (A'.ask m t k info) (A.ask m t k info)
  perf : ∀ m b, Tracks F (A'.perf m b) (A.perf m b)

theorem AskTracks.before {A' A : Asker (W × List ε)} (h : AskTracks F A' A) (m : Meta) (b : Basic) : Tracks F (A'.before m b) (A.before m b) := by
  have hn : Tracks F (W := W) Out.norm Out.norm := .norm
  have hs : Tracks F (W := W) (fun _ => Out.stuck) (fun _ => Out.stuck) := ⟨fun _ => trivial, fun _ => .inl rfl⟩
  constructor
  · intro c
    unfold Asker.before
    dsimp only
    repeat' split
    all_goals first | exact hn.1 c | exact (h.ask _ _ _ _).1 c | exact hs.1 c
  · intro c
    unfold Asker.before
    dsimp only
    repeat' split
    all_goals first | exact hn.2 c | exact (h.ask _ _ _ _).2 c | exact hs.2 c

theorem AskTracks.after {A' A : Asker (W × List ε)} (h : AskTracks F A' A) (m : Meta) (b : Basic) : Tracks F (A'.after m b) (A.after m b) := by
  have hn : Tracks F (W := W) Out.norm Out.norm := .norm
  constructor
  · intro c
    unfold Asker.after
    dsimp only
    repeat' split
    all_goals first | exact hn.1 c | exact (h.ask _ _ _ _).1 c
  · intro c
    unfold Asker.after
    dsimp only
    repeat' split
    all_goals first | exact hn.2 c | exact (h.ask _ _ _ _).2 c

theorem AskTracks.basic {A' A : Asker (W × List ε)} (h : AskTracks F A' A) (m : Meta) (b : Basic) : Tracks F (A'.basic m b) (A.basic m b) :=
  (h.before m b).bind ((h.perf m b).bind (h.after m b))

theorem gden_tracks {A' A : Asker (W × List ε)} (hA : AskTracks F A' A) (L : Nat) : (∀ i : TI, Tracks F (gdenI A' L i) (gdenI A L i)) ∧
    ∀ l : List TI, Tracks F (gdenL A' L l) (gdenL A L l) := by
  have hN : Tracks F (W := W) Out.norm Out.norm := .norm
  apply TI.induct
  · intro m b; simpa only [gdenI] using hA.basic m b
  · intro m t body ih
    simpa only [gdenI] using ((hA.ask _ _ _ _).bind (ih.bind (hA.ask _ _ _ _))).inBlock t
  · intro m t body ih
    simpa only [gdenI] using ((hA.ask _ _ _ _).bind (ih.bind (hA.ask _ _ _ _))).inLoop t L
  · intro m t thn ih
    simpa only [gdenI] using (hA.ask _ _ _ _).bind (((ih.bind (hA.ask _ _ _ _)).inBlock t).branchOn ((hA.ask _ _ _ _).inBlock t))
  · intro m t thn els ih1 ih2
    simpa only [gdenI] using (hA.ask _ _ _ _).bind (((ih1.bind (hA.ask _ _ _ _)).inBlock t).branchOn ((ih2.bind (hA.ask _ _ _ _)).inBlock t))
  · simpa only [gdenL] using hN
  · intro i l h1 h2; simpa only [gdenL] using h1.bind h2

section
variable {F : Log}

open Classical in
/-- The rule that only lets the events of `F` pass, in order. -/
noncomputable def gate (F : Log) : Rule (W × Log) := fun t args s =>
  if s.world.2 ++ [(t, args)] <+: F then some (s.world.1, s.world.2 ++ [(t, args)]) else none

/-- Noting an event makes the log longer. -/
theorem noting_ask_grows (E : Env (W × Log)) (m : Meta) (t : Trap) (k : Nat) (info : List RVal) : Evolves (growing W (Trap × List RVal)) ((noting E logEvent).ask m t k info) :=
  fun _ => List.prefix_append _ _

theorem gate_tracks {E' E : Env (W × Log)} (hE : EnvTracks F E' E) : AskTracks F (judging true E' (gate F)) (noting E logEvent) := by
  constructor
  · intro m t k info
    refine ⟨noting_ask_grows E m t k info, fun c => ?_⟩
    simp only [judging, noting, gate]
    split
    · rename_i w hw
      split at hw
      · cases hw; exact .inl rfl
      · cases hw
    · rename_i hw
      split at hw
      · cases hw
      · rename_i hn
        exact .inr ⟨rfl, hn⟩
  · intro m b
    cases hd : delegation b with
    | none =>
      have e1 : (judging true E' (gate F)).perf m b = step E' b := by funext c; simp only [judging, hd]
      have e2 : (noting E logEvent).perf m b = step E b := by funext c; simp only [noting, hd]
      rw [e1, e2]
      exact step_tracks hE b
    | some p =>
      obtain ⟨t, k, info⟩ := p
      constructor
      · intro c
        simp only [noting, hd]
        exact ((step_tracks hE b).1 _).after (show _ <+: _ from List.prefix_append _ _)
      · intro c
        simp only [judging, noting, hd, gate]
        split
        · rename_i w hw
          split at hw
          · cases hw; exact (step_tracks hE b).2 _
          · cases hw
        · rename_i hw
          split at hw
          · cases hw
          · rename_i hn
            refine .inr ⟨rfl, ?_⟩
            refine OutLeft.of_evolves (w := (note logEvent t (shown m k info c) c.store).world) hn ?_
            exact (step_tracks hE b).1 _

/-- A run that ends with log `F` is not stopped by the gate for `F`. -/
theorem gated_tracks {C : Checker} {m : Module} {targets : List Nat} {T : Imports (W × Log)} (hT : LeavesLog m T) (hP : PassesCuts m T) (F : Log) (N : Num) (L d : Nat) :
    CallTracks F (callF N (judged true C m targets T (gate F)) L d) (callF N (traced C m targets T logEvent) L d) := by
  induction d with
  | zero => exact ⟨fun _ _ _ => trivial, fun _ _ _ => .inl rfl⟩
  | succ d ih =>
    have hft : ∀ g, (judged true C m targets T (gate F) g).map (·.1) = (traced C m targets T logEvent g).map (·.1) := by
      intro g; simp only [judged, traced, Option.map_map]; rfl
    have hE : EnvTracks F (⟨N, fun g => (judged true C m targets T (gate F) g).map (·.1), callF N (judged true C m targets T (gate F)) L d, L⟩ : Env (W × Log))
        ⟨N, fun g => (traced C m targets T logEvent g).map (·.1), callF N (traced C m targets T logEvent) L d, L⟩ := ⟨rfl, funext hft, rfl, ih⟩
    have hb : ∀ f (fn : Func) (c : Code), m.functions[f]? = some fn → fn.code = .present c →
        Tracks F (if f ∈ targets then gdenL (judging true ⟨N, fun g => (judged true C m targets T (gate F) g).map (·.1), callF N (judged true C m targets T (gate F)) L d, L⟩ (gate F)) L (bodyOf C m f)
            else denFlat ⟨N, fun g => (judged true C m targets T (gate F) g).map (·.1), callF N (judged true C m targets T (gate F)) L d, L⟩ c.body)
          (if f ∈ targets then gdenL (noting ⟨N, fun g => (traced C m targets T logEvent g).map (·.1), callF N (traced C m targets T logEvent) L d, L⟩ logEvent) L (bodyOf C m f)
            else denFlat ⟨N, fun g => (traced C m targets T logEvent g).map (·.1), callF N (traced C m targets T logEvent) L d, L⟩ c.body) := by
      intro f fn c hf hc
      split
      · exact (gden_tracks (gate_tracks hE) L).2 _
      · exact denFlat_tracks hE _
    constructor
    · intro f args s
      simp only [callF]
      cases hf : m.functions[f]? with
      | none => simp only [traced, hf, Option.map_none]; trivial
      | some fn =>
        cases hc : fn.code with
        | imported ns name =>
          simp only [traced, hf, Option.map_some, hc]
          exact hT fn (List.mem_of_getElem? hf) ns name hc (growing W (Trap × List RVal)) (fun _ _ _ => List.prefix_refl _) _ ih.1 args s
        | present c =>
          have e : traced C m targets T logEvent f = some (fn.type, .code c.locals fun E => if f ∈ targets then gdenL (noting E logEvent) E.loopFuel (bodyOf C m f) else denFlat E c.body) := by
            simp only [traced, hf, Option.map_some, hc]
          rw [e]
          exact runBody_evolves (hb f fn c hf hc).1 _ _ args s
    · intro f args s
      simp only [callF]
      cases hf : m.functions[f]? with
      | none => simp only [traced, judged, hf, Option.map_none]; exact .inl rfl
      | some fn =>
        cases hc : fn.code with
        | imported ns name =>
          have e : traced C m targets T logEvent f = some (fn.type, .host (T ns name)) := by simp only [traced, hf, Option.map_some, hc]
          have e' : judged true C m targets T (gate F) f = some (fn.type, .host (T ns name)) := by simp only [judged, hf, Option.map_some, hc]
          rw [e, e']
          exact hP fn (List.mem_of_getElem? hf) ns name hc F _ _ ih args s
        | present c =>
          have e : traced C m targets T logEvent f = some (fn.type, .code c.locals fun E => if f ∈ targets then gdenL (noting E logEvent) E.loopFuel (bodyOf C m f) else denFlat E c.body) := by
            simp only [traced, hf, Option.map_some, hc]
          have e' : judged true C m targets T (gate F) f = some (fn.type, .code c.locals fun E => if f ∈ targets then gdenL (judging true E (gate F)) E.loopFuel (bodyOf C m f) else denFlat E c.body) := by
            simp only [judged, hf, Option.map_some, hc]
          rw [e, e']
          exact runBody_tracks (hb f fn c hf hc) _ _ args s

end

end Wastrum
