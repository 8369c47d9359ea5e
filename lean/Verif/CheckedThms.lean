import Verif.ShippedForward
/-!
# Every valid program can be instrumented (C82)

The tool relies on the type checker of `wasabi_wasm`, a parameter of the model. Here it is said what is expected of that checker (`Checker.Right`), that a
checker that meets the expectation exists for all programs, and that then every valid program is instrumented for every analysis, and the hypotheses of the theorems
about the instrumented program hold.
-/

set_option linter.unusedVariables false

namespace Wastrum

variable {W A : Type}

/-! ## Specification -/

/-- **Specification.** What a type checker reported for an instruction of a body with these locals and globals is right: if it reports a type for an access to a variable, it is
the type of that variable. It need not report anything (in code that cannot be reached it does not), and what it reports for other instructions does not matter. -/
def ReportOK (locals : List ValType) (globals : List ValType) (i : LInstr) (reported : InferredTy) : Prop :=
  match i with
  | .loc .get i => ∀ t, reported = .reachable ⟨[], [t]⟩ → locals[i]? = some t
  | .loc .set i => ∀ t, reported = .reachable ⟨[t], []⟩ → locals[i]? = some t
  | .loc .tee i => ∀ t, reported = .reachable ⟨[t], [t]⟩ → locals[i]? = some t
  | .glob .get i => ∀ t, reported = .reachable ⟨[], [t]⟩ → globals[i]? = some t
  | .glob .set i => ∀ t, reported = .reachable ⟨[t], []⟩ → globals[i]? = some t
  | _ => True

/-- **Specification.** From a state of the checker on, it accepts the instructions, and what it reports is right. -/
def ChecksFrom {S : Type} (check : S → LInstr → Option (S × InferredTy)) (locals globals : List ValType) : S → List LInstr → Prop
  | _, [] => True
  | s, i :: is => ∃ s' reported, check s i = some (s', reported) ∧ ReportOK locals globals i reported ∧ ChecksFrom check locals globals s' is

/-- **Specification.** A type checker does its job on a module: it accepts every valid function and reports the types of the variables accessed. -/
def Checker.Right (C : Checker) (m : Module) : Prop :=
  ∀ f ∈ m.functions, ∀ c, f.code = .present c → ValidBody m.ctx f.type c → ChecksFrom C.check (f.type.inputs ++ c.locals) (m.globals.map (·.type)) (C.init m f) c.body

/-! ## Annotations -/

mutual
/-- The annotations of an instruction are right. -/
def TI.AnnotsOK (Γ : Ctx) : TI → Prop
  | .basic m b => AnnotOK Γ m b
  | .block _ _ body => TI.AnnotsOKL Γ body
  | .loop _ _ body => TI.AnnotsOKL Γ body
  | .ifThen _ _ thn => TI.AnnotsOKL Γ thn
  | .ifElse _ _ thn els => TI.AnnotsOKL Γ thn ∧ TI.AnnotsOKL Γ els
/-- The annotations of a body are right. -/
def TI.AnnotsOKL (Γ : Ctx) : List TI → Prop
  | [] => True
  | i :: l => i.AnnotsOK Γ ∧ TI.AnnotsOKL Γ l
end

theorem TI.annotsOKL_append {Γ : Ctx} {l l' : List TI} : TI.AnnotsOKL Γ (l ++ l') ↔ TI.AnnotsOKL Γ l ∧ TI.AnnotsOKL Γ l' := by
  induction l with
  | nil => simp [TI.AnnotsOKL]
  | cons i l ih => simp [TI.AnnotsOKL, ih, and_assoc]

theorem annotOK_label {Γ : Ctx} {x : List ValType} {m : Meta} {b : Basic} : AnnotOK (Γ.label x) m b ↔ AnnotOK Γ m b := by
  cases b <;> first | exact Iff.rfl | (rename_i op _; cases op <;> exact Iff.rfl)

mutual
theorem TI.annotsOK_label {Γ : Ctx} {x : List ValType} : ∀ i : TI, i.AnnotsOK (Γ.label x) ↔ i.AnnotsOK Γ
  | .basic m b => annotOK_label
  | .block _ _ body => TI.annotsOKL_label body
  | .loop _ _ body => TI.annotsOKL_label body
  | .ifThen _ _ thn => TI.annotsOKL_label thn
  | .ifElse _ _ thn els => and_congr (TI.annotsOKL_label thn) (TI.annotsOKL_label els)
theorem TI.annotsOKL_label {Γ : Ctx} {x : List ValType} : ∀ l : List TI, TI.AnnotsOKL (Γ.label x) l ↔ TI.AnnotsOKL Γ l
  | [] => Iff.rfl
  | i :: l => and_congr (TI.annotsOK_label i) (TI.annotsOKL_label l)
end

mutual
/-- Code that is typed, with right annotations, is typed as annotated code. -/
theorem TTyI.of {Γ : Ctx} : ∀ (i : TI) {a c : List ValType}, i.AnnotsOK Γ → HTyI Γ i.erase a c → TTyI Γ i a c
  | .basic m b, _, _, ha, .basic h => .basic h ha
  | .block m t body, _, _, ha, .block h => .block (TTyL.of body ((TI.annotsOKL_label body).2 ha) h)
  | .loop m t body, _, _, ha, .loop h => .loop (TTyL.of body ((TI.annotsOKL_label body).2 ha) h)
  | .ifThen m t thn, _, _, ha, .ifThen e h => .ifThen e (TTyL.of thn ((TI.annotsOKL_label thn).2 ha) h)
  | .ifElse m t thn els, _, _, ha, .ifElse h h' => .ifElse (TTyL.of thn ((TI.annotsOKL_label thn).2 ha.1) h) (TTyL.of els ((TI.annotsOKL_label els).2 ha.2) h')
theorem TTyL.of {Γ : Ctx} : ∀ (l : List TI) {a c : List ValType}, TI.AnnotsOKL Γ l → HTyL Γ (TI.eraseL l) a c → TTyL Γ l a c
  | [], _, _, _, .nil => .nil
  | i :: l, _, _, ha, .cons h h' => .cons (TTyI.of i ha.1 h) (TTyL.of l ha.2 h')
end

/-! ## Nesting keeps annotations -/

/-- Bodies kept while nesting. -/
def TEntered.AnnotsOK (Γ : Ctx) (e : TEntered) : Prop :=
  match e.et with
  | .ifThenElse thn => TI.AnnotsOKL Γ thn
  | _ => True

def TPState.AnnotsOK (Γ : Ctx) (s : TPState) : Prop := (∀ e ∈ s.entered, e.AnnotsOK Γ) ∧ (∀ b ∈ s.bodies, TI.AnnotsOKL Γ b) ∧ TI.AnnotsOKL Γ s.cur

/-- What the report of the checker says of an annotated instruction. -/
theorem reportOK_annot {Γ : Ctx} {x : TII} {b : Basic} (hb : x.instr.toBasic = some b) (h : ReportOK Γ.locals (Γ.globals.map (·.1)) x.instr x.ty) (m : Meta) (hm : m.ty = x.ty) :
    AnnotOK Γ m b := by
  obtain ⟨f, k, ty, i⟩ := x
  have reads : ∀ {t}, ty.reads = some t → ty = .reachable ⟨[], [t]⟩ := by
    intro t h
    unfold InferredTy.reads at h
    split at h <;> simp_all
  have writes : ∀ {t}, ty.writes = some t → ty = .reachable ⟨[t], []⟩ := by
    intro t h
    unfold InferredTy.writes at h
    split at h <;> simp_all
  have tees : ∀ {t}, ty.tees = some t → ty = .reachable ⟨[t], [t]⟩ := by
    intro t h
    unfold InferredTy.tees at h
    split at h <;> simp_all
  dsimp only at hb h hm
  cases i <;> simp only [LInstr.toBasic, Option.some.injEq, reduceCtorEq] at hb <;> subst hb <;> try exact trivial
  case loc op i =>
    cases op <;> intro t ht <;> rw [hm] at ht
    · exact h t (reads ht)
    · exact h t (writes ht)
    · exact h t (tees ht)
  case glob op i =>
    cases op <;> intro t ht <;> rw [hm] at ht
    · have := h t (reads ht); simpa using this
    · have := h t (writes ht); simpa using this

theorem TPState.step_annots {Γ : Ctx} {s s' : TPState} {x : TII} (hs : s.AnnotsOK Γ) (hx : ReportOK Γ.locals (Γ.globals.map (·.1)) x.instr x.ty) (h : s.step x = .ok s') :
    s'.AnnotsOK Γ := by
  obtain ⟨h1, h2, h3⟩ := hs
  unfold TPState.step at h
  split at h
  case h_1 | h_2 | h_3 =>
    cases h
    refine ⟨?_, ?_, trivial⟩
    · intro e he
      rcases List.mem_cons.1 he with rfl | he
      · exact trivial
      · exact h1 e he
    · intro b hb
      rcases List.mem_cons.1 hb with rfl | hb
      · exact h3
      · exact h2 b hb
  case h_4 =>
    split at h
    · rename_i es he
      cases h
      refine ⟨?_, h2, trivial⟩
      intro e h'
      rcases List.mem_cons.1 h' with rfl | h'
      · exact h3
      · exact h1 e (by rw [he]; exact List.mem_cons_of_mem _ h')
    · cases h
  case h_5 =>
    split at h
    · cases h
    · rename_i e es he
      dsimp only at h
      split at h
      · cases h
      · rename_i b bs hb
        cases h
        refine ⟨fun e' h' => h1 e' (by rw [he]; exact List.mem_cons_of_mem _ h'), fun b' h' => h2 b' (by rw [hb]; exact List.mem_cons_of_mem _ h'), ?_⟩
        refine TI.annotsOKL_append.2 ⟨h2 b (by rw [hb]; exact List.mem_cons_self), ?_⟩
        have hthn := h1 e (by rw [he]; exact List.mem_cons_self)
        obtain ⟨et, ef, ei, ety⟩ := e
        cases et
        · exact ⟨h3, trivial⟩
        · exact ⟨h3, trivial⟩
        · exact ⟨h3, trivial⟩
        · exact ⟨⟨hthn, h3⟩, trivial⟩
  case h_6 =>
    split at h
    · rename_i b hb
      cases h
      exact ⟨h1, h2, TI.annotsOKL_append.2 ⟨h3, reportOK_annot hb hx _ rfl, trivial⟩⟩
    · cases h

theorem TPState.run_annots {Γ : Ctx} : ∀ {l : List TII} {s s' : TPState}, s.AnnotsOK Γ → (∀ x ∈ l, ReportOK Γ.locals (Γ.globals.map (·.1)) x.instr x.ty) → s.run l = .ok s' → s'.AnnotsOK Γ
  | [], s, s', hs, _, h => by cases h; exact hs
  | x :: l, s, s', hs, hl, h => by
    simp only [TPState.run] at h
    split at h
    · rename_i t ht
      exact TPState.run_annots (TPState.step_annots hs (hl x List.mem_cons_self) ht) (fun y hy => hl y (List.mem_cons_of_mem _ hy)) h
    · cases h

theorem raiseTyped_annots {Γ : Ctx} {l : List TII} {b : List TI} (hl : ∀ x ∈ l, ReportOK Γ.locals (Γ.globals.map (·.1)) x.instr x.ty) (h : raiseTyped l = .ok b) : TI.AnnotsOKL Γ b := by
  unfold raiseTyped at h
  split at h
  · split at h
    · cases h
    · rename_i s hs
      have := TPState.run_annots (Γ := Γ) (s := ⟨[], [], []⟩) ⟨by simp, by simp, trivial⟩ (fun x hx => hl x (List.dropLast_subset _ hx)) hs
      split at h
      · cases h; exact this.2.2
      · cases h
  · cases h

/-- The checker's reports end up in the annotated instructions. -/
theorem typeInferenceFrom_checks {S : Type} {check : S → LInstr → Option (S × InferredTy)} {locals globals : List ValType} (fidx : Nat) :
    ∀ {l : List LInstr} {s : S} (k : Nat), ChecksFrom check locals globals s l →
      ∃ tis, typeInferenceFrom check fidx s k l = some tis ∧ tis.map TII.instr = l ∧ ∀ x ∈ tis, ReportOK locals globals x.instr x.ty
  | [], s, k, _ => ⟨[], rfl, rfl, by simp⟩
  | i :: l, s, k, h => by
    obtain ⟨s', r, h1, h2, h3⟩ := h
    obtain ⟨tis, e1, e2, e3⟩ := typeInferenceFrom_checks fidx (k + 1) h3
    refine ⟨⟨fidx, k, r, i⟩ :: tis, by simp [typeInferenceFrom, h1, e1], by simp [e2], ?_⟩
    intro x hx
    rcases List.mem_cons.1 hx with rfl | hx
    · exact h2
    · exact e3 x hx

/-- A valid target gets a nested body, typed, with right annotations. -/
theorem raiseTarget_valid {C : Checker} {m : Module} (hv : ValidModule m) (hC : C.Right m) {i : Nat} {f : Func} {c : Code} (hf : m.functions[i]? = some f) (hc : f.code = .present c) :
    ∃ b, raiseTarget C m i = .ok b ∧ TTyL (m.ctx.body f.type c.locals) b [] f.type.results.reverse := by
  have hmem := List.mem_of_getElem? hf
  have hval := hv.functions f hmem c hc
  obtain ⟨h, hr, ht⟩ := hval
  obtain ⟨tis, e1, e2, e3⟩ := typeInferenceFrom_checks i 0 (hC f hmem c hc ⟨h, hr, ht⟩)
  have hE := raiseTyped_erase tis
  rw [e2, hr] at hE
  cases hb : raiseTyped tis with
  | error e => rw [hb] at hE; cases hE
  | ok b =>
    rw [hb] at hE
    simp only [Except.map, Except.ok.injEq] at hE
    refine ⟨b, by simp [raiseTarget, hf, hc, raiseFunction, e1, hb], TTyL.of b ?_ (by rw [hE]; exact ht)⟩
    refine raiseTyped_annots (fun x hx => ?_) hb
    have := e3 x hx
    simpa [Module.ctx, Ctx.body, Function.comp_def] using this

/-! ## Limits -/

/-- **Specification.** Implementation limits, far above those of every WebAssembly engine: functions, tables, and instructions of a function are fewer than `2 ^ 31`, and so are
the inputs and results of the types of functions and blocks. -/
structure Module.WithinLimits (m : Module) : Prop where
  functions : m.functions.length < 2 ^ 31
  tables : m.tables.length < 2 ^ 31
  arity : ∀ f ∈ m.functions, f.type.inputs.length < 2 ^ 31 ∧ f.type.results.length < 2 ^ 31
  length : ∀ f ∈ m.functions, ∀ c, f.code = .present c → c.body.length < 2 ^ 31
  blocks : ∀ f ∈ m.functions, ∀ c, f.code = .present c → ∀ t, (.block t ∈ c.body ∨ .loop t ∈ c.body ∨ .ite t ∈ c.body) → t.inputs.length < 2 ^ 31 ∧ t.results.length < 2 ^ 31

/-- Block types are within the limits. -/
def BlocksOK (l : List LInstr) : Prop := ∀ t, (.block t ∈ l ∨ .loop t ∈ l ∨ .ite t ∈ l) → t.inputs.length < 2 ^ 31 ∧ t.results.length < 2 ^ 31

theorem BlocksOK.mono {l l' : List LInstr} (h : BlocksOK l) (hs : ∀ x ∈ l', x ∈ l) : BlocksOK l' := by
  intro t ht
  refine h t ?_
  rcases ht with ht | ht | ht
  · exact .inl (hs _ ht)
  · exact .inr (.inl (hs _ ht))
  · exact .inr (.inr (hs _ ht))

/-- Indices of typed instructions are bounded by what there is. -/
theorem BTyped.small {Γ : Ctx} {b : Basic} {a c : List ValType} (h : BTyped Γ b a c) (hf : ∀ f ty, Γ.ftype f = some ty → f < 2 ^ 31) (ht : Γ.tables.length < 2 ^ 31)
    (hl : Γ.labels.length ≤ 2 ^ 31) : b.toL.Small := by
  have label : ∀ {l lt}, Γ.labels[l]? = some lt → l < 2 ^ 31 := fun h => Nat.lt_of_lt_of_le (List.getElem?_eq_some_iff.1 h).1 hl
  cases b <;> try exact trivial
  case brIf l => obtain ⟨lt, h, _⟩ := h; exact label h
  case brTable ls d =>
    refine ⟨fun x hx => ?_, ?_⟩
    · obtain ⟨lt, h, _⟩ := h x (List.mem_cons_of_mem _ hx); exact label h
    · obtain ⟨lt, h, _⟩ := h d List.mem_cons_self; exact label h
  case call f => obtain ⟨ty, h, _⟩ := h; exact hf f ty h
  case callIndirect ty tbl => exact Nat.lt_trans (List.getElem?_eq_some_iff.1 h.1).1 ht

mutual
theorem HTyI.small {Γ : Ctx} (hf : ∀ f ty, Γ.ftype f = some ty → f < 2 ^ 31) (ht : Γ.tables.length < 2 ^ 31) :
    ∀ (i : HI) {a c : List ValType}, HTyI Γ i a c → Γ.labels.length + i.lower.length ≤ 2 ^ 31 → BlocksOK i.lower → ∀ x ∈ i.lower, x.Small
  | .basic b, _, _, .basic h, hl, hb, x, hx => by
    simp only [HI.lower, List.mem_singleton] at hx hl
    subst hx
    exact h.small hf ht (by omega)
  | .block t body, _, _, .block h, hl, hb, x, hx => by
    simp only [HI.lower, List.mem_cons, List.mem_append, List.not_mem_nil, or_false, List.length_cons, List.length_append, List.length_nil] at hx hl
    rcases hx with rfl | hx | rfl
    · exact hb t (by simp [HI.lower])
    · exact HTyL.small (Γ := Γ.label _) hf ht body h (by simp only [Ctx.label, List.length_cons]; omega) (hb.mono fun y hy => by simp [HI.lower, hy]) x hx
    · trivial
  | .loop t body, _, _, .loop h, hl, hb, x, hx => by
    simp only [HI.lower, List.mem_cons, List.mem_append, List.not_mem_nil, or_false, List.length_cons, List.length_append, List.length_nil] at hx hl
    rcases hx with rfl | hx | rfl
    · exact hb t (by simp [HI.lower])
    · exact HTyL.small (Γ := Γ.label _) hf ht body h (by simp only [Ctx.label, List.length_cons]; omega) (hb.mono fun y hy => by simp [HI.lower, hy]) x hx
    · trivial
  | .ifThen t thn, _, _, .ifThen _ h, hl, hb, x, hx => by
    simp only [HI.lower, List.mem_cons, List.mem_append, List.not_mem_nil, or_false, List.length_cons, List.length_append, List.length_nil] at hx hl
    rcases hx with rfl | hx | rfl
    · exact hb t (by simp [HI.lower])
    · exact HTyL.small (Γ := Γ.label _) hf ht thn h (by simp only [Ctx.label, List.length_cons]; omega) (hb.mono fun y hy => by simp [HI.lower, hy]) x hx
    · trivial
  | .ifElse t thn els, _, _, .ifElse h h', hl, hb, x, hx => by
    simp only [HI.lower, List.mem_cons, List.mem_append, List.not_mem_nil, or_false, List.length_cons, List.length_append, List.length_nil] at hx hl
    rcases hx with rfl | hx | rfl | hx | rfl
    · exact hb t (by simp [HI.lower])
    · exact HTyL.small (Γ := Γ.label _) hf ht thn h (by simp only [Ctx.label, List.length_cons]; omega) (hb.mono fun y hy => by simp [HI.lower, hy]) x hx
    · trivial
    · exact HTyL.small (Γ := Γ.label _) hf ht els h' (by simp only [Ctx.label, List.length_cons]; omega) (hb.mono fun y hy => by simp [HI.lower, hy]) x hx
    · trivial
theorem HTyL.small {Γ : Ctx} (hf : ∀ f ty, Γ.ftype f = some ty → f < 2 ^ 31) (ht : Γ.tables.length < 2 ^ 31) :
    ∀ (l : List HI) {a c : List ValType}, HTyL Γ l a c → Γ.labels.length + (HI.lowerL l).length ≤ 2 ^ 31 → BlocksOK (HI.lowerL l) → ∀ x ∈ HI.lowerL l, x.Small
  | [], _, _, _, _, _, x, hx => by simp [HI.lowerL] at hx
  | i :: l, _, _, .cons h h', hl, hb, x, hx => by
    simp only [HI.lowerL, List.mem_append, List.length_append] at hx hl
    rcases hx with hx | hx
    · exact HTyI.small hf ht i h (by omega) (hb.mono fun y hy => by simp [HI.lowerL, hy]) x hx
    · exact HTyL.small hf ht l h' (by omega) (hb.mono fun y hy => by simp [HI.lowerL, hy]) x hx
end

/-- A valid module within the limits is small in the sense of the model's other theorems. -/
theorem Module.WithinLimits.small {m : Module} (h : m.WithinLimits) (hv : ValidModule m) : SmallModule m where
  functions := h.functions
  arity := h.arity
  length f hf c hc := by have := h.length f hf c hc; omega
  body f hf c hc i hi := by
    obtain ⟨b, hr, ht⟩ := hv.functions f hf c hc
    have hl : lower b = c.body := C02_lower_raise _ _ hr
    have hlen := h.length f hf c hc
    have hblk := h.blocks f hf c hc
    rw [← hl, lower] at hi hlen hblk
    simp only [List.length_append, List.length_cons, List.length_nil] at hlen
    simp only [List.mem_append, List.mem_singleton] at hi
    rcases hi with hi | rfl
    · refine HTyL.small (Γ := m.ctx.body f.type c.locals) ?_ ?_ b ht ?_ ?_ i hi
      · intro g ty hg
        simp only [Module.ctx, Ctx.body, Option.map_eq_some_iff] at hg
        obtain ⟨f', hg, _⟩ := hg
        exact Nat.lt_trans (List.getElem?_eq_some_iff.1 hg).1 h.functions
      · simpa [Module.ctx, Ctx.body] using h.tables
      · simp only [Ctx.body, List.length_cons, List.length_nil]; omega
      · intro t ht'
        refine hblk t ?_
        simpa using ht'
    · trivial

/-! ## C82 -/

/-- A checker that looks up the types of variables and reports nothing else. -/
def lookupChecker : Checker where
  S := List ValType × List ValType
  init m f := (f.type.inputs ++ (match f.code with | .present c => c.locals | .imported _ _ => []), m.globals.map (·.type))
  check s i := some (s, match i with
    | .loc .get i => (s.1[i]?).elim .unreachable fun t => .reachable ⟨[], [t]⟩
    | .loc .set i => (s.1[i]?).elim .unreachable fun t => .reachable ⟨[t], []⟩
    | .loc .tee i => (s.1[i]?).elim .unreachable fun t => .reachable ⟨[t], [t]⟩
    | .glob .get i => (s.2[i]?).elim .unreachable fun t => .reachable ⟨[], [t]⟩
    | .glob .set i => (s.2[i]?).elim .unreachable fun t => .reachable ⟨[t], []⟩
    | _ => .unreachable)

/-- **C82 (the expectation can be met).** For every module there is a type checker that does its job. -/
theorem C82_right_checker_exists (m : Module) : lookupChecker.Right m := by
  intro f hf c hc _
  have key : ∀ (s : List ValType × List ValType) (l : List LInstr), ChecksFrom lookupChecker.check s.1 s.2 s l := by
    intro s l
    induction l with
    | nil => trivial
    | cons i l ih =>
      refine ⟨s, _, rfl, ?_, ih⟩
      cases i <;> try exact trivial
      case loc op i => cases op <;> intro t ht <;> cases e : s.1[i]? <;> simp [e] at ht <;> simp [ht]
      case glob op i => cases op <;> intro t ht <;> cases e : s.2[i]? <;> simp [e] at ht <;> simp [ht]
  have := key (lookupChecker.init m f) c.body
  simpa [lookupChecker, hc] using this

/-- **C82.** A valid program (within the limits) is instrumented for every analysis and every selection of functions, in every order in which the tool may go
through its sets, unless it has more than one memory. -/
theorem C82_valid_programs_are_instrumented {C : Checker} {m : Module} (hv : ValidModule m) (hl : m.WithinLimits) (hC : C.Right m) (iface : Interface) (ts : Option (List Nat))
    {ord ord' : List Nat → List Nat} (ho : ∀ l, (ord l).Perm l) (ho' : ∀ l, (ord' l).Perm l) :
    (∃ r, instrument C ord ord' iface ts m = .ok r) ↔ m.memories.length ≤ 1 := by
  rw [instrument_ok_iff ho ho' (hl.small hv)]
  refine ⟨fun h => h.1, fun h => ⟨h, fun i hi => ?_⟩⟩
  obtain ⟨f, hf, hc, _⟩ := mem_bodyTargets.1 hi
  obtain ⟨c, hc⟩ : ∃ c, f.code = .present c := by
    unfold Func.hasCode at hc
    split at hc
    · rename_i c e; exact ⟨c, e⟩
    · cases hc
  obtain ⟨b, hb, _⟩ := raiseTarget_valid hv hC hf hc
  exact ⟨b, hb⟩

/-- What the other theorems assume of the annotated bodies holds. -/
theorem wellAnnotated_of {C : Checker} {m : Module} (hv : ValidModule m) (hC : C.Right m) (i : Nat) (f : Func) (hf : m.functions[i]? = some f) : WellAnnotated m f (bodyOf C m i) := by
  intro c hc
  obtain ⟨b, hb, ht⟩ := raiseTarget_valid hv hC hf hc
  simpa [bodyOf, hb] using ht

/-- **C82 (from valid to valid).** The instrumented program is valid, unless the program uses names of exports that the tool adds. -/
theorem C82_valid_to_valid {C : Checker} {m : Module} (hv : ValidModule m) (hl : m.WithinLimits) (hC : C.Right m) (hm : m.memories.length ≤ 1) {iface : Interface} (hst : iface.Standard)
    (hsa : iface.StandardApply) (ts : Option (List Nat)) (hres : ∀ name ∈ iface.toolExports, name ∉ m.exportNames) :
    (∃ r, Instruments C iface ts m r) ∧ ∀ r, Instruments C iface ts m r → ValidModule r.module := by
  refine ⟨?_, fun r h => C15_instrumented_module_valid (hl.small hv) hst hsa h hv (fun i _ f hf => wellAnnotated_of hv hC i f hf) hres⟩
  obtain ⟨r, hr⟩ := (C82_valid_programs_are_instrumented (ord := id) (ord' := id) hv hl hC iface ts (fun _ => .rfl) (fun _ => .rfl)).2 hm
  exact ⟨r, id, id, fun _ => .rfl, fun _ => .rfl, hr⟩

/-- **C82 (and transparently).** Every valid program with at most one memory is instrumented for every analysis without `apply` advice; and if the analysis forwards, the result
behaves like the program, for every call, whatever checker was used. -/
theorem C82_valid_programs_behave_the_same {C : Checker} {m : Module} (hv : ValidModule m) (hl : m.WithinLimits) (hC : C.Right m) (hm : m.memories.length ≤ 1) {iface : Interface}
    (hst : iface.Standard) (hg : iface.generic = none) (ts : Option (List Nat)) {N : Num} {P : Trap → List RVal → A → A → Prop} {H : Imports W} {H' : Imports (W × A)}
    (hF : Forwards N iface P H') (hI : ImportsAgree m (fun w (p : W × A) => w = p.1) H H') :
    (∃ r, Instruments C iface ts m r) ∧ ∀ r, Instruments C iface ts m r →
      ∀ {f : Nat} {ty : FuncType} {args : List RVal} {s : Store W}, m.ctx.ftype f = some ty → ValsOK m.ctx args ty.inputs → StoreOK m.ctx s → ∀ a : A,
        (∀ vs s1, (∃ L d, callF N (machineOf H m.functions) L d f args s = .ok vs s1) ↔
          ∃ L d a1, callF N (machineOf H' r.module.functions) L d f args (s.withAnalysis a) = .ok vs (s1.withAnalysis a1)) ∧
        (∀ s1, (∃ L d, callF N (machineOf H m.functions) L d f args s = .trap s1) ↔
          ∃ L d a1, callF N (machineOf H' r.module.functions) L d f args (s.withAnalysis a) = .trap (s1.withAnalysis a1)) ∧
        ((∀ L d, callF N (machineOf H m.functions) L d f args s = .fuel) ↔
          ∀ L d, callF N (machineOf H' r.module.functions) L d f args (s.withAnalysis a) = .fuel) := by
  refine ⟨?_, fun r h f ty args s hf hargs hok a =>
    C10_same_behaviour (hl.small hv) hst hg h hv (fun i _ f hf => wellAnnotated_of hv hC i f hf) hF hI hf hargs hok a⟩
  obtain ⟨r, hr⟩ := (C82_valid_programs_are_instrumented (ord := id) (ord' := id) hv hl hC iface ts (fun _ => .rfl) (fun _ => .rfl)).2 hm
  exact ⟨r, id, id, fun _ => .rfl, fun _ => .rfl, hr⟩

/-! ### A program -/

theorem exModule_limits : exModule.WithinLimits where
  functions := by decide
  tables := by decide
  arity := by decide
  length := by
    intro f hf c hc
    simp only [exModule, List.mem_cons, List.not_mem_nil, or_false] at hf
    rcases hf with rfl | rfl | rfl | rfl <;> cases hc <;> decide
  blocks := by
    intro f hf c hc t ht
    simp only [exModule, List.mem_cons, List.not_mem_nil, or_false] at hf
    rcases hf with rfl | rfl | rfl | rfl <;> cases hc <;> simp at ht <;> subst ht <;> decide

example : ∃ r, Instruments lookupChecker exIfaceAll none exModule r := by
  obtain ⟨r, hr⟩ := (C82_valid_programs_are_instrumented (ord := id) (ord' := id) exModule_valid exModule_limits (C82_right_checker_exists _) exIfaceAll none
    (fun _ => .rfl) (fun _ => .rfl)).2 (by decide)
  exact ⟨r, id, id, fun _ => .rfl, fun _ => .rfl, hr⟩

-- Both parts of `C82_valid_to_valid`, for an analysis with five hooks that intercepts calls.
example : (∃ r, Instruments lookupChecker exIfaceAll none exModule r) ∧ ∀ r, Instruments lookupChecker exIfaceAll none exModule r → ValidModule r.module := by
  refine C82_valid_to_valid exModule_valid exModule_limits (C82_right_checker_exists _) (by decide) ?_ ?_ none (by decide +kernel)
  · intro t e h
    simp only [exIfaceAll] at h
    split at h
    · simp only [Option.some.injEq] at h; subst h; exact ⟨rfl, rfl⟩
    · simp at h
  · intro ge cb h
    simp only [exIfaceAll, Option.some.injEq] at h
    obtain ⟨rfl, rfl⟩ := Prod.mk.inj h
    exact ⟨rfl, rfl, rfl, rfl, by decide +kernel⟩

-- `main(0, 5)` returns 49 and prints 7, also when instrumented for a forwarding analysis.
example : ∃ r, Instruments lookupChecker exIface none exModule r ∧ ∃ L d log,
    callF exNum (machineOf (exAnalysis (fun _ => none) false) r.module.functions) L d 1 [.i32 0, .i32 5] (exStore.withAnalysis []) =
      .ok [.i32 49] (Store.withAnalysis { exStore with world := [.i32 7] } log) := by
  obtain ⟨⟨r, hr⟩, h⟩ := C82_valid_programs_behave_the_same exModule_valid exModule_limits (C82_right_checker_exists _) (by decide) exIface_documented.standard rfl none
    (exAnalysis_forwards (fun _ => none) false) (exImports_agree _ _)
  exact ⟨r, hr, ((h r hr (f := 1) rfl (ValsOK.nil.cons rfl (by simp [RVal.OK]) |>.cons rfl (by simp [RVal.OK])) exStore_ok []).1 _ _).1 ⟨10, 10, exModule_runs⟩⟩

end Wastrum
