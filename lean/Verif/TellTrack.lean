import Verif.TellSim
import Verif.Gate
/-!
# The story of a run (supporting lemmas for C76)
-/

set_option linter.unusedSimpArgs false
set_option linter.unusedVariables false

namespace Wastrum

variable {W A : Type}

/-! ## Vocabulary -/

/-- The instructions of a story. -/
def Story.instrs (st : Story) : Log := st.filterMap fun
  | .instr t args => some (t, args)
  | _ => none

/-- Calls are properly nested: every function that is entered is left (with the arguments it was entered with), and what happens in between is properly nested. -/
inductive Story.Nested : Story → Prop where
  | nil : Story.Nested []
  | instr {t args rest} : Story.Nested rest → Story.Nested (.instr t args :: rest)
  | call {i args inner ress rest} : Story.Nested inner → Story.Nested rest → Story.Nested (.enter i args :: (inner ++ .leave i args ress :: rest))

theorem Story.Nested.append {a b : Story} (ha : Story.Nested a) (hb : Story.Nested b) : Story.Nested (a ++ b) := by
  induction ha with
  | nil => exact hb
  | instr _ ih => exact .instr ih
  | call h1 _ _ ih2 => rw [List.cons_append, List.append_assoc, List.cons_append]; exact .call h1 ih2

/-! ## Nesting -/

/-- Stories to which properly nested events are added. -/
def storyNesting (W : Type) : Evolution (W × Story) where
  done p q := ∃ new, q.2 = p.2 ++ new ∧ Story.Nested new
  cut p q := ∃ new, q.2 = p.2 ++ new ∧ ∃ rest, Story.Nested (new ++ rest)
  refl p := ⟨[], by simp, .nil⟩
  trans := by
    rintro a b c ⟨n1, h1, g1⟩ ⟨n2, h2, g2⟩
    exact ⟨n1 ++ n2, by rw [h2, h1, List.append_assoc], g1.append g2⟩
  cut_trans := by
    rintro a b c ⟨n1, h1, g1⟩ ⟨n2, h2, rest, g2⟩
    exact ⟨n1 ++ n2, by rw [h2, h1, List.append_assoc], rest, by rw [List.append_assoc]; exact g1.append g2⟩
  cut_of := fun ⟨n, h, g⟩ => ⟨n, h, [], by simpa using g⟩

/-- A told run respects an evolution if instructions may be noted and intercepted calls respect it. -/
theorem told_evolves {V : Evolution (W × Story)} {C : Checker} {m : Module} {targets intercepted : List Nat} {G : Imports (W × Story)}
    (hG : ∀ f ∈ m.functions, ∀ ns name, f.code = .imported ns name → HostEvolves V (G ns name)) (hn : ∀ t args p, V.done p (tellInstr t args p))
    (hr : ∀ i run, (∀ args s, V.Res s.world (run args s)) → ∀ args s, V.Res s.world (toldRun i run args s)) (N : Num) (L d : Nat) :
    CallEvolves V (toldCall C m targets intercepted G N L d) := by
  induction d with
  | zero => intro f args s; trivial
  | succ d ih =>
    intro i args s
    simp only [toldCall]
    cases hf : m.functions[i]? with
    | none => trivial
    | some f =>
      have hrun : ∀ args s, V.Res s.world (runImpl ⟨N, fun k => m.functions[k]?.map (·.type), toldCall C m targets intercepted G N L d, L⟩ f.type (toldImpl C m targets G i f) args s) := by
        intro args s
        unfold toldImpl
        cases hc : f.code with
        | imported ns name => exact hG f (List.mem_of_getElem? hf) ns name hc _ ih args s
        | present c =>
          refine runBody_evolves ?_ _ _ args s
          split
          · refine gden_evolves.2 _ ((TI.All.imp ?_).2 _ ((all_of_locs (S := fun _ => True)).2 _ fun _ _ => trivial))
            intro n _
            exact noting_node_evolves ih fun t k info hm ops hk w => hn t _ w
          · exact denFlat_evolves ih _
      dsimp only
      split
      · exact hr i _ hrun args s
      · exact hrun args s

theorem told_nested {C : Checker} {m : Module} {targets intercepted : List Nat} {G : Imports (W × Story)} (hG : LeavesLog m G) (N : Num) (L d : Nat) :
    CallEvolves (storyNesting W) (toldCall C m targets intercepted G N L d) := by
  refine told_evolves (V := storyNesting W) (fun f hf ns name hc => hG f hf ns name hc _ fun w w' l => ⟨[], by simp, .nil⟩) (fun t args p => ⟨[.instr t args], rfl, .instr .nil⟩) ?_ N L d
  intro i run hrun args s
  unfold toldRun
  have := hrun args (s.tell (.enter i args))
  generalize run args (s.tell (.enter i args)) = o at this ⊢
  cases o with
  | ok vs s1 =>
    obtain ⟨new, h1, h2⟩ := this
    refine ⟨.enter i args :: (new ++ .leave i args vs :: []), ?_, .call h2 .nil⟩
    simp only [Store.tell] at h1 ⊢
    rw [h1]
    simp
  | trap s1 =>
    obtain ⟨new, h1, rest, h2⟩ := this
    refine ⟨.enter i args :: new, ?_, rest ++ .leave i args [] :: [], ?_⟩
    · simp only [Store.tell] at h1
      rw [h1]
      simp
    · have := Story.Nested.call (i := i) (args := args) (ress := []) h2 .nil
      simpa using this
  | stuck => trivial
  | fuel => trivial

theorem told_grows {C : Checker} {m : Module} {targets intercepted : List Nat} {G : Imports (W × Story)} (hG : LeavesLog m G) (N : Num) (L d : Nat) :
    CallEvolves (growing W Note) (toldCall C m targets intercepted G N L d) := by
  refine told_evolves (fun f hf ns name hc => hG f hf ns name hc _ fun w w' l => List.prefix_refl _) (fun t args p => List.prefix_append _ _) ?_ N L d
  intro i run hrun args s
  unfold toldRun
  have := hrun args (s.tell (.enter i args))
  generalize run args (s.tell (.enter i args)) = o at this ⊢
  have h0 : s.world.2 <+: (s.tell (.enter i args)).world.2 := List.prefix_append _ _
  cases o with
  | ok vs s1 => exact (h0.trans this).trans (List.prefix_append _ _)
  | trap s1 => exact h0.trans this
  | stuck => trivial
  | fuel => trivial

/-! ## Runs that are stopped when they leave a given story -/

theorem holding_tracks {F : Story} {E' E : Env (W × Story)} (hE : EnvTracks F E' E) : AskTracks F (judging true E' (holding (· <+: F))) (noting E tellInstr) := by
  constructor
  · intro m t k info
    refine ⟨fun _ => List.prefix_append _ _, fun c => ?_⟩
    simp only [judging, noting, holding]
    split
    · rename_i w hw
      split at hw
      · cases hw; exact .inl rfl
      · cases hw
    · rename_i hw
      split at hw
      · cases hw
      · rename_i hn
        exact .inr ⟨rfl, hn⟩
  · intro m b
    cases hd : delegation b with
    | none =>
      have e1 : (judging true E' (holding (· <+: F))).perf m b = step E' b := by funext c; simp only [judging, hd]
      have e2 : (noting E tellInstr).perf m b = step E b := by funext c; simp only [noting, hd]
      rw [e1, e2]
      exact step_tracks hE b
    | some p =>
      obtain ⟨t, k, info⟩ := p
      constructor
      · intro c
        simp only [noting, hd]
        exact ((step_tracks hE b).1 _).after (show _ <+: _ from List.prefix_append _ _)
      · intro c
        simp only [judging, noting, hd, holding]
        split
        · rename_i w hw
          split at hw
          · cases hw; exact (step_tracks hE b).2 _
          · cases hw
        · rename_i hw
          split at hw
          · cases hw
          · rename_i hn
            refine .inr ⟨rfl, ?_⟩
            refine OutLeft.of_evolves (w := (note tellInstr t (shown m k info c) c.store).world) hn ?_
            exact (step_tracks hE b).1 _

/-- A run that ends with story `F` is not stopped by the rule for `F`. -/
theorem held_tracks {C : Checker} {m : Module} {targets intercepted : List Nat} {G : Imports (W × Story)} (hG : LeavesLog m G) (hP : PassesCuts m G) (F : Story) (N : Num) (L d : Nat) :
    CallTracks F (heldCall (· <+: F) C m targets intercepted G N L d) (toldCall C m targets intercepted G N L d) := by
  refine ⟨told_grows hG N L d, ?_⟩
  induction d with
  | zero => exact fun _ _ _ => .inl rfl
  | succ d ih =>
    intro i args s
    simp only [heldCall, toldCall]
    cases hf : m.functions[i]? with
    | none => exact .inl rfl
    | some f =>
      have hct : CallTracks F (heldCall (· <+: F) C m targets intercepted G N L d) (toldCall C m targets intercepted G N L d) := ⟨told_grows hG N L d, ih⟩
      have hE : EnvTracks F (⟨N, fun k => m.functions[k]?.map (·.type), heldCall (· <+: F) C m targets intercepted G N L d, L⟩ : Env (W × Story))
        ⟨N, fun k => m.functions[k]?.map (·.type), toldCall C m targets intercepted G N L d, L⟩ := ⟨rfl, rfl, rfl, hct⟩
      have hrun : ∀ args s, (growing W Note).Res s.world (runImpl ⟨N, fun k => m.functions[k]?.map (·.type), toldCall C m targets intercepted G N L d, L⟩ f.type (toldImpl C m targets G i f) args s) ∧
          ResFollows F (runImpl ⟨N, fun k => m.functions[k]?.map (·.type), heldCall (· <+: F) C m targets intercepted G N L d, L⟩ f.type (heldImpl (· <+: F) C m targets G i f) args s)
            (runImpl ⟨N, fun k => m.functions[k]?.map (·.type), toldCall C m targets intercepted G N L d, L⟩ f.type (toldImpl C m targets G i f) args s) := by
        intro args s
        unfold toldImpl heldImpl
        cases hc : f.code with
        | imported ns name =>
          exact ⟨hG f (List.mem_of_getElem? hf) ns name hc (growing W Note) (fun _ _ _ => List.prefix_refl _) _ hct.1 args s, hP f (List.mem_of_getElem? hf) ns name hc F _ _ hct args s⟩
        | present c =>
          have hb : Tracks F (if i ∈ targets then gdenL (judging true ⟨N, fun k => m.functions[k]?.map (·.type), heldCall (· <+: F) C m targets intercepted G N L d, L⟩ (holding (· <+: F))) L (bodyOf C m i)
              else denFlat ⟨N, fun k => m.functions[k]?.map (·.type), heldCall (· <+: F) C m targets intercepted G N L d, L⟩ c.body)
              (if i ∈ targets then gdenL (noting ⟨N, fun k => m.functions[k]?.map (·.type), toldCall C m targets intercepted G N L d, L⟩ tellInstr) L (bodyOf C m i)
              else denFlat ⟨N, fun k => m.functions[k]?.map (·.type), toldCall C m targets intercepted G N L d, L⟩ c.body) := by
            split
            · exact (gden_tracks (holding_tracks hE) L).2 _
            · exact denFlat_tracks hE _
          exact ⟨runBody_evolves hb.1 _ _ args s, runBody_tracks hb _ _ args s⟩
      dsimp only
      split
      · unfold heldRun toldRun
        obtain ⟨h1, h2⟩ := hrun args (s.tell (.enter i args))
        generalize runImpl ⟨N, fun k => m.functions[k]?.map (·.type), toldCall C m targets intercepted G N L d, L⟩ f.type (toldImpl C m targets G i f) args (s.tell (.enter i args)) = o at h1 h2 ⊢
        generalize runImpl ⟨N, fun k => m.functions[k]?.map (·.type), heldCall (· <+: F) C m targets intercepted G N L d, L⟩ f.type (heldImpl (· <+: F) C m targets G i f) args (s.tell (.enter i args)) = o' at h2 ⊢
        have hleft : ∀ {o : Res (W × Story)}, ResLeft F o → ResLeft F (match o with | .ok vs s1 => .ok vs (s1.tell (.leave i args vs)) | o => o) := by
          intro o h
          cases o with
          | ok vs s1 => exact not_prefix h (List.prefix_append _ _)
          | _ => exact h
        split
        · rename_i hρ
          rcases h2 with rfl | ⟨rfl, h2⟩
          · cases o' with
            | ok vs s1 =>
              dsimp only
              split
              · exact .inl rfl
              · rename_i hn; exact .inr ⟨rfl, hn⟩
            | _ => exact .inl rfl
          · exact .inr ⟨rfl, hleft h2⟩
        · rename_i hn
          exact .inr ⟨rfl, hleft (ResLeft.of_evolves (w := (s.tell (.enter i args)).world) hn h1)⟩
      · exact (hrun args s).2

/-! ## The story is that of the program -/

/-- What the instrumentation hands a hook that watches an instruction can be decoded by the library. -/
theorem stdEntry_shown (N : Num) {t : Trap} (ho : t.Observes) {args : List RVal} (hty : args.map RVal.type = t.args) : ∃ a, stdEntry t args = some a := by
  have := forward_shown (W := Unit) (N := N) (base := fun _ => none) (Trap.not_performs ho) (fun _ _ _ => .stuck) args ⟨[], [], [], [], [], ()⟩ hty
  cases h : stdEntry t args with
  | some a => exact ⟨a, rfl⟩
  | none => unfold stdHook at this; rw [h] at this; cases this

/-- Code executed with instructions noted in two ways. -/
theorem noted_body_agrees {W' : Type} {Γ : Ctx} {R : Rel W W'} {T X} {Q : W → W' → Prop} (hS : R.S = SameState Γ T X Q) {u u'} {E : Env W} {E' : Env W'}
    (hE : R.Envs Γ E E') (hu : ∀ t args adv s s', stdEntry t args = some adv → R.S s s' → R.S (note u t args s) (note u' t args s')) {b : List TI} {ty : FuncType} {locals : List ValType}
    (ht : TTyL (Γ.body ty locals) b [] ty.results.reverse) {c c'} (hc : R.Cfgs (Γ.body ty locals) [] c c') :
    R.Outs (Γ.body ty locals) ty.results.reverse (gdenL (noting E u) E.loopFuel b c) (gdenL (noting E' u') E'.loopFuel b c') := by
  rw [hE.loopFuel]
  have both : ∀ {Γ'} {ts} {c : Cfg W} {c' : Cfg W'} (m : Meta) (t : Trap) (k : Nat) (info : List RVal) (adv : Advice), stdEntry t (shown m k info c) = some adv → R.Cfgs Γ' ts c c' →
      R.Cfgs Γ' ts { c with store := note u t (shown m k info c) c.store } { c' with store := note u' t (shown m k info c') c'.store } := by
    intro Γ' ts c c' m t k info adv he hc
    have e : shown m k info c' = shown m k info c := by unfold shown; rw [hc.stack]
    rw [e]
    exact { hc with store := hu _ _ _ _ _ he hc.store }
  have typed : ∀ {Γ'} {ins : List ValType} {a} {c : Cfg W} (m : Meta) (t : Trap) (info : List RVal), ValsOK Γ' c.stack (ins.reverse ++ a) →
      t.args = ins ++ info.map RVal.type ++ [.i64, .i64] → (shown m ins.length info c).map RVal.type = t.args ∧ (c.stack.take ins.length).reverse.length = ins.length := by
    intro Γ' ins a c m t info hc hargs
    have hsp := hc.split
    simp only [List.length_reverse] at hsp
    refine ⟨?_, by simpa using hsp.1.reverse.length⟩
    rw [hargs]
    have := hsp.1.reverse.1
    rw [List.reverse_reverse] at this
    simp only [shown, List.map_append, this]
    rfl
  refine (sim (Γ₀ := Γ.body ty locals) (B := fun _ => True) ?_ ?_).2 _ (fun _ _ => trivial) _ ⟨_, rfl⟩ _ _ ht c c' hc
  · intro Γ' hΓ m b a e c c' hB hb hc
    have hm := (Ctx.SameModule.body Γ ty locals).sameBut hΓ
    simp only [noting]
    cases hd : delegation b with
    | none => exact step_sim (hS.trans (SameState.congr hm)) (hE.congr hm) hb hc
    | some p =>
      obtain ⟨t, k, info⟩ := p
      obtain ⟨ins, r, rfl, _, rfl, hargs, _⟩ := step_frame E hd hb hc.stackOK
      obtain ⟨h1, h2⟩ := typed m t info hc.stackOK hargs
      obtain ⟨adv, hadv⟩ := stdEntry_delegation hd h2 (loc := [nI64 m.fidx, nI64 m.iidx]) rfl h1
      exact step_sim (hS.trans (SameState.congr hm)) (hE.congr hm) hb (both m t _ info adv hadv hc)
  · intro Γ' hΓ m t ins info a c c' hq hc
    obtain ⟨adv, hadv⟩ := stdEntry_shown E.num hq.observes (typed m t info hc.stackOK hq.args).1
    exact .norm (both m t ins.length info adv hadv hc)

/-- Everything in the story can be told to an analysis. -/
def Story.Tellable (st : Story) : Prop := ∀ n ∈ st, ∃ t, Note.tale n = some t

theorem Story.Tellable.tales {st : Story} (h : st.Tellable) (iface : Interface) : ∃ tales, iface.Tells st tales := by
  have : ∀ l : Story, l.Tellable → ∃ tales : List Tale, l.map Note.tale = tales.map some := by
    intro l
    induction l with
    | nil => exact fun _ => ⟨[], rfl⟩
    | cons n l ih =>
      intro h
      obtain ⟨t, ht⟩ := h n (by simp)
      obtain ⟨ts, hts⟩ := ih fun n hn => h n (by simp [hn])
      exact ⟨t :: ts, by simp [ht, hts]⟩
  exact this _ fun n hn => h n (List.mem_filter.1 hn).1

theorem Story.Tellable.snoc {st : Story} (h : st.Tellable) {n : Note} {t : Tale} (hn : n.tale = some t) : Story.Tellable (st ++ [n]) := by
  intro n' hn'
  rcases List.mem_append.1 hn' with h' | h'
  · exact h n' h'
  · rw [List.mem_singleton.1 h']; exact ⟨t, hn⟩

/-- The log and the story of the same run. -/
def SameRun (log : Log) (st : Story) : Prop := st.instrs = log ∧ st.Tellable

theorem traced_told {C m targets intercepted} (hv : ValidModule m) (hB : ∀ i ∈ targets, ∀ f, m.functions[i]? = some f → WellAnnotated m f (bodyOf C m i))
    (hi : ∀ i ∈ intercepted, ∀ f, m.functions[i]? = some f → f.type.RefFree)
    {N : Num} {L : Nat} {G : Imports (W × Story)} {T : Imports (W × Log)} (hI : ImportsBeside m T G) (d : Nat) :
    CallsAgree (watchingRel m.ctx SameRun false false false False) m.ctx (callF N (traced C m targets T logEvent) L d) (toldCall C m targets intercepted G N L d) := by
  induction d with
  | zero => intro f ty args s s' _ _ _; exact .fuel
  | succ d ih =>
    intro i ty args s s' hf ha hS
    simp only [Module.ctx, Option.map_eq_some_iff] at hf
    obtain ⟨f, hf, rfl⟩ := hf
    have hm := List.mem_of_getElem? hf
    have hE : (watchingRel m.ctx SameRun false false false False).Envs m.ctx
        ⟨N, fun k => (traced C m targets T logEvent k).map (·.1), callF N (traced C m targets T logEvent) L d, L⟩
        ⟨N, fun k => m.functions[k]?.map (·.type), toldCall C m targets intercepted G N L d, L⟩ := by
      refine ⟨rfl, rfl, ?_, ih⟩
      intro f' ty' hty
      refine ⟨?_, hty⟩
      simp only [Module.ctx] at hty
      simp only [traced, Option.map_map]
      exact hty
    have hrun : ∀ args s s', ValsOK m.ctx args f.type.inputs → (watchingRel (W := W) m.ctx SameRun false false false False).S s s' →
        (watchingRel m.ctx SameRun false false false False).Ress m.ctx f.type.results (callF N (traced C m targets T logEvent) L (d + 1) i args s)
          (runImpl ⟨N, fun k => m.functions[k]?.map (·.type), toldCall C m targets intercepted G N L d, L⟩ f.type (toldImpl C m targets G i f) args s') := by
      intro args s s' ha hS
      unfold toldImpl
      cases hc : f.code with
      | imported ns name =>
        have e : traced C m targets T logEvent i = some (f.type, .host (T ns name)) := by simp only [traced, hf, Option.map_some, hc]
        simp only [callF, e]
        exact hI f hm ns name hc _ _ _ _ _ _ _ ih _ _ _ ha hS
      | present c =>
        have e : traced C m targets T logEvent i = some (f.type, .code c.locals fun E => if i ∈ targets then gdenL (noting E logEvent) E.loopFuel (bodyOf C m i) else denFlat E c.body) := by
          simp only [traced, hf, Option.map_some, hc]
        simp only [callF, e]
        refine runBody_sim (fun cfg cfg' hcc => ?_) ha hS
        by_cases hi : i ∈ targets
        · rw [if_pos hi, if_pos hi]
          refine noted_body_agrees (T := []) (X := []) (Q := fun (p : W × Log) (q : W × Story) => p.1 = q.1 ∧ SameRun p.2 q.2) rfl hE ?_ (hB i hi f hf c hc) hcc
          intro t args adv s s' he hS
          simp only [watchingRel, SameState.iff] at hS ⊢
          obtain ⟨h1, ⟨h2, h3, h4⟩, h5⟩ := hS
          refine ⟨h1.world rfl rfl rfl rfl rfl, ⟨h2, ?_, h4.snoc (t := .adv adv) (by simp only [Note.tale, he, Option.map_some])⟩, h5⟩
          simp only [note, tellInstr, logEvent, ← h3, Story.instrs, List.filterMap_append]
          rfl
        · rw [if_neg hi, if_neg hi]
          exact plain_body_agrees (T := []) (X := []) (Q := fun (p : W × Log) (q : W × Story) => p.1 = q.1 ∧ SameRun p.2 q.2) rfl hE (hv.functions _ hm c hc) hcc
    simp only [toldCall, hf]
    split
    · rename_i hi'
      have hr := hi i hi' f hf
      obtain ⟨xs, rfl, hx⟩ := args_nums ha.1 hr.inputs
      have hS' : (watchingRel m.ctx SameRun false false false False).S s (s'.tell (.enter i (xs.map .num))) := by
        simp only [watchingRel, SameState.iff] at hS ⊢
        obtain ⟨h1, ⟨h2, h3, h4⟩, h5⟩ := hS
        refine ⟨h1, ⟨h2, ?_, h4.snoc (t := .enter i xs) (by simp only [Note.tale, nums_mapM, Option.map_some])⟩, h5⟩
        simp only [Store.tell, ← h3, Story.instrs, List.filterMap_append]
        simp
      have := hrun _ _ _ ha hS'
      unfold toldRun
      generalize runImpl _ _ _ _ (s'.tell (.enter i (xs.map .num))) = o at this ⊢
      generalize callF N (traced C m targets T logEvent) L (d + 1) i _ s = o' at this ⊢
      cases this with
      | @ok vs s1 s1' hv hS1 =>
        obtain ⟨ys, rfl, hy⟩ := args_nums hv.1 hr.results
        refine .ok hv ?_
        simp only [watchingRel, SameState.iff] at hS1 ⊢
        obtain ⟨h1, ⟨h2, h3, h4⟩, h5⟩ := hS1
        refine ⟨h1, ⟨h2, ?_, h4.snoc (t := .leave i xs ys) (by simp only [Note.tale, nums_mapM, Option.map_some, Option.bind_some])⟩, h5⟩
        simp only [Store.tell, ← h3, Story.instrs, List.filterMap_append]
        simp
      | trap h => exact .trap h
      | fuel => exact .fuel
      | fuelL h => cases h
      | fuelR h => cases h
      | trapL h => cases h
      | trapT h => exact absurd h id
      | trapR h => exact absurd h id
    · exact hrun args _ _ ha hS

end Wastrum
