import Verif.ExNan
/-!
# What the shipped analysis `denan` does to a program (C72)
-/

set_option linter.unusedSimpArgs false
set_option linter.unusedVariables false

namespace Wastrum

variable {W W' A : Type}

/-! ## Vocabulary -/

/-- Not-a-number in IEEE 754: the exponent is all ones and the fraction is not zero. -/
def Val.IsNaN : Val → Prop
  | .f32 b => b.extractLsb' 23 8 = 255#8 ∧ b.extractLsb' 0 23 ≠ 0#23
  | .f64 b => b.extractLsb' 52 11 = 2047#11 ∧ b.extractLsb' 0 52 ≠ 0#52
  | _ => False

instance (v : Val) : Decidable v.IsNaN := by
  cases v <;> simp only [Val.IsNaN] <;> infer_instance

/-- NaNs become zero, everything else stays. -/
def zeroNaN (v : Val) : Val := if v.IsNaN then (match v with | .f32 _ => .f32 0 | .f64 _ => .f64 0 | v => v) else v

/-- A value that is not a NaN. -/
def RVal.notNaN : RVal → Bool
  | .num v => !decide v.IsNaN
  | .ref _ _ => true

/-- Stop at a value that is not `ok`, and change nothing otherwise. -/
def checking (ok : RVal → Bool) : Revision := fun vs => if vs.all ok then some vs else none

/-- Imported functions that go wrong when called with a value that is not `ok`. -/
def Imports.refusing (ok : RVal → Bool) (H : Imports W) : Imports W := fun ns name call args s => if args.all ok then H ns name call args s else .stuck

/-! ## `denan` -/

theorem f32IsNan_iff (b : BitVec 32) : f32IsNan b = true ↔ (Val.f32 b).IsNaN := by
  have e1 : (b &&& 0x7fffffff#32).toNat = b.toNat % 2 ^ 31 := by
    rw [BitVec.toNat_and]; exact Nat.and_two_pow_sub_one_eq_mod _ 31
  simp only [f32IsNan, BitVec.ult, decide_eq_true_eq, e1, Val.IsNaN, ← BitVec.toNat_inj, ne_eq, BitVec.extractLsb'_toNat, Nat.shiftRight_eq_div_pow,
    BitVec.toNat_ofNat]
  have := b.isLt
  omega

theorem f64IsNan_iff (b : BitVec 64) : f64IsNan b = true ↔ (Val.f64 b).IsNaN := by
  have e1 : (b &&& 0x7fffffffffffffff#64).toNat = b.toNat % 2 ^ 63 := by
    rw [BitVec.toNat_and]; exact Nat.and_two_pow_sub_one_eq_mod _ 63
  simp only [f64IsNan, BitVec.ult, decide_eq_true_eq, e1, Val.IsNaN, ← BitVec.toNat_inj, ne_eq, BitVec.extractLsb'_toNat, Nat.shiftRight_eq_div_pow,
    BitVec.toNat_ofNat]
  have := b.isLt
  omega

theorem denan_eq (v : Val) : v.denan = zeroNaN v := by
  cases v with
  | f32 b => simp only [Val.denan, zeroNaN, f32IsNan_iff]
  | f64 b => simp only [Val.denan, zeroNaN, f64IsNan_iff]
  | _ => simp [Val.denan, zeroNaN, Val.IsNaN]

theorem zeroNaN_not (v : Val) : ¬ (zeroNaN v).IsNaN := by
  unfold zeroNaN
  split
  · cases v <;> simp_all [Val.IsNaN]
  · assumption

theorem zeroNaN_of_not {v : Val} (h : ¬ v.IsNaN) : zeroNaN v = v := if_neg h

theorem tidy_zeroNaN : FloatsOnly zeroNaN where
  type v := by unfold zeroNaN; split <;> cases v <;> rfl
  i32 x := by simp [zeroNaN, Val.IsNaN]
  i64 x := by simp [zeroNaN, Val.IsNaN]
  idem v := zeroNaN_of_not (zeroNaN_not v)

theorem mapNum_notNaN (v : RVal) : (v.mapNum zeroNaN).notNaN = true := by
  cases v with
  | num v => simp [RVal.mapNum, RVal.notNaN, zeroNaN_not]
  | ref r a => rfl

theorem mapNum_of_notNaN {v : RVal} (h : v.notNaN = true) : v.mapNum zeroNaN = v := by
  cases v with
  | num v => simp only [RVal.notNaN, Bool.not_eq_true', decide_eq_false_iff_not] at h; simp only [RVal.mapNum, zeroNaN_of_not h]
  | ref r a => rfl

theorem replacing_of_notNaN {vs : List RVal} (h : vs.all RVal.notNaN = true) : replacing zeroNaN vs = some vs := by
  simp only [replacing, Option.some.injEq]
  conv => rhs; rw [← List.map_id vs]
  exact List.map_congr_left fun v hv => mapNum_of_notNaN (List.all_eq_true.1 h v hv)

/-- The advice of `denan` revises. -/
theorem denan_revises {iface : Interface} {ts m} {r : Instrumented} {N : Num} {K : LibLink} (hK : K.Good) (hd : ∀ t, (iface.trap t).isSome → t.denans = true) :
    RevisesBy (W := W) (A := A) iface ts m r N zeroNaN (denanBody N r.module.exported) (denanBefore K) (denanAfter K) where
  tidy := tidy_zeroNaN
  hooks := by
    intro t ht args ha call s
    have hdn : Val.denan = zeroNaN := funext denan_eq
    have hres : ∀ o : Res (World W A), o.denan = o.revised (replacing zeroNaN) := by
      intro o
      cases o with
      | ok vs s =>
        simp only [Res.denan, Res.revised, replacing, hdn]
        rfl
      | _ => rfl
    have idem : ∀ v, zeroNaN (zeroNaN v) = zeroNaN v := tidy_zeroNaN.idem
    by_cases hst : t = .i32Store ∨ t = .i64Store ∨ t = .f32Store ∨ t = .f64Store
    · have hsig : (stdSig t).2.2 = [] := by rcases hst with rfl | rfl | rfl | rfl <;> rfl
      unfold stdHook
      rw [stdEntry_mapNum tidy_zeroNaN t ha]
      cases he : stdEntry t args with
      | none => rfl
      | some a =>
        have hsa : ∃ i v o op l, a = .store i v o op l := by
          rcases hst with rfl | rfl | rfl | rfl
          all_goals
            unfold stdEntry at he
            dsimp only at he
            split at he
            · simp only [Option.map_eq_some_iff] at he
              obtain ⟨op, _, rfl⟩ := he
              exact ⟨_, _, _, _, _, rfl⟩
            · cases he
        obtain ⟨i, v, o, op, l, rfl⟩ := hsa
        simp only [Option.map_some, Advice.mapNum, denanBody, forwardBody, hdn, hsig]
        cases op.perform r.module.exported call i (zeroNaN v) o s with
        | ok vs s1 =>
          cases vs with
          | nil => rfl
          | cons x xs => rfl
        | _ => rfl
    · refine stdHook_revised tidy_zeroNaN (fun args a he call s => ?_) ha call s
      have hdt := hd t ht
      cases t <;> first | (cases hdt; done) | (exact absurd (.inl rfl) hst) | (exact absurd (.inr (.inl rfl)) hst) | (exact absurd (.inr (.inr (.inl rfl))) hst) | (exact absurd (.inr (.inr (.inr rfl))) hst) | skip
      all_goals
        unfold stdEntry at he
        dsimp only at he
        split at he
        · first
          | (cases he; simp only [denanBody, forwardBody, Advice.mapNum, hdn, hres, Res.revised, replacing, List.map_cons, List.map_nil, RVal.mapNum, idem]; done)
          | (simp only [Option.map_eq_some_iff] at he
             obtain ⟨op, _, rfl⟩ := he
             simp only [denanBody, forwardBody, Advice.mapNum, hdn, hres, Res.revised, replacing, List.map_cons, List.map_nil, RVal.mapNum, idem]; done)
        · cases he
  calls := by
    intro i hi f hf hr hn p
    have hg : ∀ (i : Nat) (x : Val), (Val.denan x).type = x.type := fun _ x => by rw [denan_eq]; exact tidy_zeroNaN.type x
    have e : ∀ xs : List Val, xs.mapIdx (fun _ v => v.denan) = xs.map zeroNaN := by
      intro xs
      apply List.ext_getElem?
      intro i
      simp [denan_eq]
    have hl : ∀ k, k ≤ f.type.slots → (BitVec.ofNat 32 k).toNat = k := by
      intro k hk
      rw [BitVec.toNat_ofNat, Nat.mod_eq_of_lt (by omega)]
    constructor
    · refine ⟨id, ?_⟩
      have := Edits.updateArgs (W := W) (A := A) (p := p) hK hr hn hg
      simp only [e] at this
      simp only [denanBefore, LibLink.updateEachArg, handle]
      rw [hl _ (by simp only [FuncType.slots]; omega)]
      exact this
    · refine ⟨id, ?_⟩
      have := Edits.updateRess (W := W) (A := A) (p := p) hK hr hn hg
      simp only [e] at this
      simp only [denanAfter, LibLink.updateEachRes, handle]
      rw [hl _ (by simp only [FuncType.slots]; omega)]
      exact this

/-! ## Runs that are only checked -/

/-- A run in which the values seen are only checked keeps up with one in which, at no more places, values are revised in a way that does not
concern values that pass the check. (Once the check has failed, nothing is claimed.) -/
theorem guarded_agrees {C : Checker} {m : Module} {targets inter inter' : List Nat} {hooked hooked' : Trap → Bool} {g : Revision} {ok : RVal → Bool} {H : Imports W} {N : Num} {L : Nat}
    (hv : ValidModule m) (hB : ∀ i ∈ targets, ∀ f, m.functions[i]? = some f → WellAnnotated m f (bodyOf C m i)) (hH : ImportsAgree m Eq H H)
    (hg : ∀ vs, vs.all ok = true → g vs = some vs) (hi : ∀ i ∈ inter', i ∈ inter) (hh : ∀ t, hooked' t = true → hooked t = true) (d : Nat) :
    CallsAgree (agreeing m.ctx Eq false false true) m.ctx (revisedCall C m targets inter hooked (checking ok) H N L d) (revisedCall C m targets inter' hooked' g H N L d) := by
  induction d with
  | zero => intro f ty args s s' _ _ _; exact .fuel
  | succ d ih =>
    intro i ty args s s' hf ha hS
    simp only [Module.ctx, Option.map_eq_some_iff] at hf
    obtain ⟨f, hf, rfl⟩ := hf
    have hm := List.mem_of_getElem? hf
    simp only [revisedCall, hf]
    have hE : (agreeing (W := W) m.ctx Eq false false true).Envs m.ctx
        ⟨N, fun k => m.functions[k]?.map (·.type), revisedCall C m targets inter hooked (checking ok) H N L d, L⟩
        ⟨N, fun k => m.functions[k]?.map (·.type), revisedCall C m targets inter' hooked' g H N L d, L⟩ :=
      ⟨rfl, rfl, fun k ty hk => ⟨hk, hk⟩, ih⟩
    generalize hel : (⟨N, fun k => m.functions[k]?.map (·.type), revisedCall C m targets inter hooked (checking ok) H N L d, L⟩ : Env W) = E at hE
    generalize her : (⟨N, fun k => m.functions[k]?.map (·.type), revisedCall C m targets inter' hooked' g H N L d, L⟩ : Env W) = E' at hE
    have hrun : (agreeing (W := W) m.ctx Eq false false true).Ress m.ctx f.type.results (runImpl E f.type (revisedImpl C m targets hooked (checking ok) H i f) args s)
        (runImpl E' f.type (revisedImpl C m targets hooked' g H i f) args s') := by
      cases hc : f.code with
      | imported ns name =>
        simp only [runImpl, revisedImpl, hc]
        exact hH f hm ns name hc _ _ _ _ _ hE.callF _ _ _ ha hS
      | present c =>
        simp only [runImpl, revisedImpl, hc]
        refine runBody_sim (fun cfg cfg' hcc => ?_) ha hS
        by_cases hi : i ∈ targets
        · rw [if_pos hi, if_pos hi]
          rw [hE.loopFuel]
          refine (sim (Γ₀ := m.ctx.body f.type c.locals) (B := fun _ => True) ?_ ?_).2 _ (fun _ _ => trivial) _ ⟨_, rfl⟩ _ _ (hB i hi f hf c hc) cfg cfg' hcc
          · intro Γ' hΓ md b a e c c' _ hb hc
            have hmm := (Ctx.SameModule.body m.ctx f.type _).sameBut hΓ
            have hSS : (agreeing (W := W) m.ctx Eq false false true).S = SameState Γ' [] [] Eq := SameState.congr hmm
            have hE' := hE.congr hmm
            have key := step_sim hSS hE' hb hc
            simp only [revising]
            cases hd : delegation b with
            | none => exact key
            | some p =>
              obtain ⟨t, k, info⟩ := p
              dsimp only
              cases ht : hooked t with
              | false =>
                have : hooked' t = false := by
                  cases h : hooked' t with
                  | false => rfl
                  | true => rw [hh t h] at ht; cases ht
                simp only [this, Bool.false_eq_true, if_false]
                exact key
              | true =>
                simp only [if_true]
                obtain ⟨_, _, _, _, _, _, e1⟩ := step_frame E hd hb hc.stackOK
                obtain ⟨_, _, _, _, _, _, e2⟩ := step_frame E' hd hb (hc.stack ▸ hc.stackOK)
                have hst : c'.store = c.store := by
                  have h := hc.store
                  rw [hSS] at h
                  obtain ⟨_, w, rfl, e⟩ := h
                  rw [e]; simp [Store.extend]
                have hex : ∀ ops s, execInstr E' b ops s = execInstr E b ops s := by
                  intro ops s
                  rw [execInstr_execute E' hd, execInstr_execute E hd, hE.num]
                rw [hex] at e2
                rw [hc.stack, hst] at e2
                simp only [revisedRun, hex, hc.stack, hst]
                cases h1 : ((c.stack.take k).reverse).all ok with
                | false =>
                  simp only [checking, h1, Bool.false_eq_true, if_false]
                  exact .trapL rfl
                | true =>
                  rw [hg _ h1]
                  simp only [checking, h1, if_true]
                  rw [e1, e2] at key
                  cases hx : execInstr E b (c.stack.take k).reverse c.store with
                  | ok vs s1 =>
                    rw [hx] at key e2
                    dsimp only at key e2
                    cases h2 : vs.all ok with
                    | false =>
                      simp only [Res.revised, checking, h2, Bool.false_eq_true, if_false]
                      exact .trapL rfl
                    | true =>
                      simp only [Res.revised, checking, h2, if_true, hg _ h2, e2, ite_self]
                      exact key
                  | _ =>
                    rw [hx] at key e2
                    dsimp only at key e2
                    simp only [Res.revised, e2, ite_self]
                    exact key
          · intro Γ' hΓ md t ins info a c c' hq hc
            simp only [revising, hc.stack]
            cases ht : hooked t with
            | false =>
              have : hooked' t = false := by
                cases h : hooked' t with
                | false => rfl
                | true => rw [hh t h] at ht; cases ht
              simp only [this, Bool.false_eq_true, if_false]
              exact .norm hc
            | true =>
              simp only [if_true]
              cases h1 : ((c.stack.take ins.length).reverse).all ok with
              | false =>
                simp only [checking, h1, Bool.false_eq_true, if_false]
                exact .trapL rfl
              | true =>
                simp only [checking, h1, if_true, hg _ h1, List.reverse_reverse, List.take_append_drop]
                have : (if hooked' t = true then Out.norm { c' with stack := c.stack } else Out.norm c') = Out.norm c' := by
                  split
                  · rw [← hc.stack]
                  · rfl
                rw [this]
                exact .norm hc
        · rw [if_neg hi, if_neg hi]
          exact plain_body_agrees rfl hE (hv.functions _ hm c hc) hcc
    by_cases hin : i ∈ inter
    · rw [if_pos hin]
      cases h1 : args.all ok with
      | false =>
        simp only [revisedRun, checking, h1, Bool.false_eq_true, if_false]
        exact .trapL rfl
      | true =>
        simp only [revisedRun, checking, h1, if_true, hg _ h1]
        generalize runImpl E f.type (revisedImpl C m targets hooked (checking ok) H i f) args s = o at hrun ⊢
        generalize runImpl E' f.type (revisedImpl C m targets hooked' g H i f) args s' = o' at hrun ⊢
        cases hrun with
        | @ok vs s1 s1' hv hs =>
          cases h2 : vs.all ok with
          | false =>
            simp only [Res.revised, checking, h2, Bool.false_eq_true, if_false]
            exact .trapL rfl
          | true =>
            simp only [Res.revised, checking, h2, if_true, hg _ h2, ite_self]
            exact .ok hv hs
        | trap h => simp only [Res.revised, ite_self]; exact .trap h
        | fuel => simp only [Res.revised, ite_self]; exact .fuel
        | fuelL h => cases h
        | fuelR h => cases h
        | trapL h => exact .trapL h
        | trapT h => exact absurd h id
        | trapR h => exact absurd h id
    · rw [if_neg hin, if_neg (fun h => hin (hi i h))]
      exact hrun

/-- With nothing revised, this is the original program. -/
theorem revised_nothing {C : Checker} {m : Module} {targets : List Nat} {g : Revision} {H : Imports W} {N : Num} {L : Nat}
    (hr : ∀ i ∈ targets, ∃ b, raiseTarget C m i = .ok b) (d : Nat) : revisedCall C m targets [] (fun _ => false) g H N L d = callF N (machineOf H m.functions) L d := by
  induction d with
  | zero => rfl
  | succ d ih =>
    funext i args s
    simp only [revisedCall, List.not_mem_nil, if_false, ih]
    cases hf : m.functions[i]? with
    | none => simp only [callF, machineOf, hf, Option.map_none]
    | some f =>
      dsimp only
      cases hc : f.code with
      | imported ns name =>
        rw [callF_import hf hc]
        simp only [runImpl, revisedImpl, hc]
      | present c =>
        rw [callF_code hf hc]
        have henv : (⟨N, fun k => m.functions[k]?.map (·.type), callF N (machineOf H m.functions) L d, L⟩ : Env W) = envAt N (machineOf H m.functions) L d := by
          simp only [envAt]
          congr 1
          funext k
          simp [machineOf, Function.comp_def]
        rw [henv]
        simp only [runImpl, revisedImpl, hc]
        by_cases hi : i ∈ targets
        · simp only [hi, if_true]
          congr 1
          funext cfg
          obtain ⟨b, hb⟩ := hr i hi
          have eb : bodyOf C m i = b := by simp [bodyOf, hb]
          obtain ⟨f', c', hf', hc', hrr⟩ := raiseTarget_present hb
          rw [hf] at hf'; cases hf'
          rw [hc] at hc'; cases hc'
          have e : revising (envAt N (machineOf H m.functions) L d) (fun _ => false) g = plain (envAt N (machineOf H m.functions) L d) := by
            unfold revising plain
            congr 1
            · funext md b c
              simp only [Bool.false_eq_true, if_false]
              split <;> rfl
          rw [e, (gden_plain _).2, eb, ← denFlat_lowerTyped, C02_lowerTyped_raiseFunction _ _ _ _ _ hrr]
        · simp only [hi, if_false]

/-! ## The instrumented program -/

/-- The program in which values are revised and the program instrumented by an analysis that revises them are in step, in both directions. -/
theorem revising_agrees {C iface ts m r ge cb} (hs : SmallModule m) (hst : iface.Documented) (hsa : iface.StandardApply) (h : Instruments C iface ts m r)
    (hg : iface.generic = some (ge, cb)) (hv : ValidModule m)
    (hB : ∀ i ∈ bodyTargets m ts, ∀ f, m.functions[i]? = some f → WellAnnotated m f (bodyOf C m i)) (hres : ∀ name ∈ iface.toolExports, name ∉ m.exportNames) :
    ∃ base : Nat, (∃ f, r.module.functions[base]? = some f ∧ f.exports = [cb.name]) ∧
      ∀ (exact : Bool), (∀ i ∈ bodyTargets m ts, ∀ f c, m.functions[i]? = some f → f.code = .present c →
        OnlyCode (OffsetsAre iface (fun o => o.toNat < 2 ^ 31 ∧ (exact = true → o = 0))) c.body) →
      ∀ (W A : Type) (K : LibLink) (N : Num) (T : List Table) (X : List (RefType × List (Option Nat))) (B : Nat) (H : Imports W) (H' : Imports (World W A)) (φ : Val → Val)
        (body : Advice → (Nat → List RVal → Store (World W A) → Res (World W A)) → Store (World W A) → Res (World W A)) (pre post : RuntimeValues → RuntimeValues → Act (World W A) Unit),
        Deployed iface m r ge K base T X B body pre post H H' → RevisesBy iface ts m r N φ body pre post →
        ∀ (f : Nat) (ty : FuncType) (args : List RVal) (s : Store W) (a : A) (l : Lib),
          m.ctx.ftype f = some ty → ValsOK m.ctx args ty.inputs → StoreOK m.ctx s →
          l.Ok → l.mem.pages < 65536 → SegmentsIntact m r (s.extend T X (s.world, a, l.store)) →
        ∀ (L d : Nat), l.free + d * B ≤ l.mem.limit * 65536 → l.free + d * B ≤ 65535 * 65536 →
          let revised := revisedCall C m (bodyTargets m ts) (applyTargets m ts) (fun t => (iface.trap t).isSome) (replacing φ) H N L
          (besideLib m.ctx T X (fun _ => LibAt l.free l.mem.limit) never true false (!exact)).Ress m.ctx ty.results (revised d f args s)
            (callF N (machineOf H' r.module.functions) L (5 * d + 2) f args (s.extend T X (s.world, a, l.store))) ∧
          (besideLib m.ctx T X (fun _ => LibAt l.free l.mem.limit) never false true (!exact)).Ress m.ctx ty.results (revised d f args s)
            (callF N (machineOf H' r.module.functions) L d f args (s.extend T X (s.world, a, l.store))) := by
  obtain ⟨order, fs, sigs, hooks, copy, hA⟩ := applied hs h hg
  have hstd := hsa ge cb hg
  have hn := (C15_instrumented_module_valid hs hst.standard hsa h hv hB hres).exports
  refine ⟨copy + 2 * order.length, ⟨_, hA.at.callBase, rfl⟩, ?_⟩
  intro exact hoff W A K N T X B H H' φ body pre post hR hφ f ty args s a l hf ha hok ok hpg hseg L d hc1 hc2 revised
  have hsigs : sigs = K.sigs := by have := hA.sigs_eq; rw [hR.sigs] at this; exact (Option.some.inj this).symm
  subst hsigs
  have hsz : order.length < 2 ^ 32 := by
    have := hA.count
    have := hs.functions
    omega
  have hseg' : ∀ s : Store (World W A), s.tables[m.tables.length]? = T[0]? → SegmentsIntact m r s := by
    intro s2 e
    refine intact_of hA hseg ?_
    rw [e]
    have hl := tables_length hok
    simp only [Store.extend]
    rw [List.getElem?_append_right (by omega)]
    simp [hl]
  have hS : ∀ fl fr, (besideLib m.ctx T X (fun _ => LibAt l.free l.mem.limit) never fl fr (!exact)).S s (s.extend T X (s.world, a, l.store)) :=
    fun fl fr => ⟨hok, _, ⟨rfl, l, rfl, ok, rfl, rfl, hpg⟩, rfl⟩
  exact ⟨revised_forward (L := L) hs hst h hn hA ⟨hstd.1, hstd.2.1⟩ ⟨hstd.2.2.1, hstd.2.2.2.1⟩ hsz hv hB hoff hR hφ hseg' (M := l.mem.limit) d (5 * d + 2) l.free (Nat.le_refl _) hc1 hc2
      f ty args s _ hf ha (hS _ _),
    revised_backward (L := L) hs hst h hn hA ⟨hstd.1, hstd.2.1⟩ ⟨hstd.2.2.1, hstd.2.2.2.1⟩ hsz hv hB hoff hR hφ hseg' (M := l.mem.limit) d d l.free (Nat.le_refl _) hc1 hc2
      f ty args s _ hf ha (hS _ _)⟩

/-- A valid program instrumented by `denan` (any of its hooks, and its `apply` advice). -/
structure DenanTarget (C : Checker) (iface : Interface) (ts : Option (List Nat)) (m : Module) (r : Instrumented) (ge : WasmExport) (cb : WasmImport) : Prop where
  small : SmallModule m
  documented : iface.Documented
  standard : iface.StandardApply
  hooks : ∀ t, (iface.trap t).isSome → t.denans = true
  instruments : Instruments C iface ts m r
  apply : iface.generic = some (ge, cb)
  valid : ValidModule m
  annotated : ∀ i ∈ bodyTargets m ts, ∀ f, m.functions[i]? = some f → WellAnnotated m f (bodyOf C m i)
  reserved : ∀ name ∈ iface.toolExports, name ∉ m.exportNames

/-- The same, where every load and store that goes through the analysis has static offset 0 (as in C48). -/
structure Denanned (C : Checker) (iface : Interface) (ts : Option (List Nat)) (m : Module) (r : Instrumented) (ge : WasmExport) (cb : WasmImport) : Prop extends DenanTarget C iface ts m r ge cb where
  offsets : ∀ i ∈ bodyTargets m ts, ∀ f c, m.functions[i]? = some f → f.code = .present c → OnlyCode (OffsetsAre iface fun o => o = 0) c.body

/-- The circumstances of a call of function `f` with arguments `args` in the program instrumented by `denan`, linked with the stack library: the
program is in state `s`, the analysis in state `a`, the library in state `l`, which has room for `d` nested frames. -/
structure DenanCall (iface : Interface) (m : Module) (r : Instrumented) (ge : WasmExport) (base : Nat) (N : Num) (K : LibLink) (T : List Table) (X : List (RefType × List (Option Nat)))
    (H : Imports W) (H' : Imports (World W A)) (f : Nat) (args : List RVal) (s : Store W) (a : A) (l : Lib) (d : Nat) : Prop where
  type : ∃ ty, m.ctx.ftype f = some ty ∧ ValsOK m.ctx args ty.inputs
  store : StoreOK m.ctx s
  lib : l.Ok
  pages : l.mem.pages < 65536
  segments : SegmentsIntact m r (s.extend T X (s.world, a, l.store))
  room : ∃ B, Deployed iface m r ge K base T X B (denanBody N r.module.exported) (denanBefore K) (denanAfter K) H H' ∧ l.free + d * B ≤ l.mem.limit * 65536 ∧ l.free + d * B ≤ 65535 * 65536

/-- The original program where, at every instruction the analysis has a hook for and at every call it intercepts, NaNs among the values that go in
or come out are replaced by zero. -/
def zeroingNaNs (C : Checker) (iface : Interface) (ts : Option (List Nat)) (m : Module) (H : Imports W) (N : Num) (L : Nat) : Nat → Nat → List RVal → Store W → Res W :=
  revisedCall C m (bodyTargets m ts) (applyTargets m ts) (fun t => (iface.trap t).isSome) (replacing zeroNaN) H N L

/-- The original program, stopped when a NaN is among the values that go in or come out at an instruction the analysis has a hook for or at a call
it intercepts. -/
def stoppingAtNaNs (C : Checker) (iface : Interface) (ts : Option (List Nat)) (m : Module) (H : Imports W) (N : Num) (L : Nat) : Nat → Nat → List RVal → Store W → Res W :=
  revisedCall C m (bodyTargets m ts) (applyTargets m ts) (fun t => (iface.trap t).isSome) (checking RVal.notNaN) H N L

/-- C72. A program instrumented by `denan` does what the original does when NaNs are replaced by zero wherever the analysis looks: at the hooked
instructions (operands and results) and at intercepted calls (arguments and results), and nowhere else. For every function, all arguments and every
state: if the call returns or traps in one of the two, it does so in the other, with the same results and in the same program state; and neither
goes wrong. -/
theorem C72_denan_zeroes_nans {C iface ts m r ge cb} (hD : Denanned C iface ts m r ge cb) :
    ∃ base : Nat, (∃ f, r.module.functions[base]? = some f ∧ f.exports = [cb.name]) ∧
      ∀ (W A : Type) (N : Num) (K : LibLink) (T : List Table) (X : List (RefType × List (Option Nat))) (H : Imports W) (H' : Imports (World W A))
        (f : Nat) (args : List RVal) (s : Store W) (a : A) (l : Lib) (L d : Nat), DenanCall iface m r ge base N K T X H H' f args s a l d →
          let zeroing := zeroingNaNs C iface ts m H N L
          let instrumented := callF N (machineOf H' r.module.functions) L
          let s' := s.extend T X (s.world, a, l.store)
          (∀ vs s1, zeroing d f args s = .ok vs s1 →
            ∃ a1 l1, instrumented (5 * d + 2) f args s' = .ok vs (s1.extend T X (s1.world, a1, l1.store)) ∧ Lib.Ok l1 ∧ l1.free = l.free ∧ l1.mem.limit = l.mem.limit) ∧
          (∀ s1, zeroing d f args s = .trap s1 → ∃ a1 st1, instrumented (5 * d + 2) f args s' = .trap (s1.extend T X (s1.world, a1, st1))) ∧
          (∀ vs s1', instrumented d f args s' = .ok vs s1' →
            ∃ s1 a1 l1, zeroing d f args s = .ok vs s1 ∧ s1' = s1.extend T X (s1.world, a1, l1.store) ∧ Lib.Ok l1 ∧ l1.free = l.free ∧ l1.mem.limit = l.mem.limit) ∧
          (∀ s1', instrumented d f args s' = .trap s1' → ∃ s1 a1 st1, zeroing d f args s = .trap s1 ∧ s1' = s1.extend T X (s1.world, a1, st1)) ∧
          zeroing d f args s ≠ .stuck ∧ instrumented d f args s' ≠ .stuck := by
  obtain ⟨base, hb, hall⟩ := revising_agrees hD.small hD.documented hD.standard hD.instruments hD.apply hD.valid hD.annotated hD.reserved
  have hoff' : ∀ i ∈ bodyTargets m ts, ∀ f c, m.functions[i]? = some f → f.code = .present c →
      OnlyCode (OffsetsAre iface (fun o => o.toNat < 2 ^ 31 ∧ (true = true → o = 0))) c.body := by
    intro i hi f c hf hc b hb t k info hd ht
    have := hD.offsets i hi f c hf hc b hb t k info hd ht
    cases b <;> first | trivial | (simp only at this ⊢; rw [this]; exact ⟨by decide, fun _ => rfl⟩)
  refine ⟨base, hb, ?_⟩
  intro W A N K T X H H' f args s a l L d hc zeroing instrumented s'
  obtain ⟨ty, hf, ha⟩ := hc.type
  obtain ⟨B, hR, h1, h2⟩ := hc.room
  obtain ⟨k1, k2⟩ := hall true hoff' W A K N T X B H H' zeroNaN _ _ _ hR (denan_revises hR.good hD.hooks) f ty args s a l hf ha hc.store hc.lib hc.pages hc.segments L d h1 h2
  exact exact_outcomes k1 k2

theorem Denanned.offsets_below {C iface ts m r ge cb} (hD : Denanned C iface ts m r ge cb) :
    ∀ i ∈ bodyTargets m ts, ∀ f c, m.functions[i]? = some f → f.code = .present c → OnlyCode (OffsetsAre iface fun o => o.toNat < 2 ^ 31) c.body := by
  intro i hi f c hf hc b hb t k info hd ht
  have := hD.offsets i hi f c hf hc b hb t k info hd ht
  cases b <;> first | trivial | (simp only at this ⊢; rw [this]; decide)

/-- C72, with offsets below 2^31 at the loads and stores. Beyond the end of the address space such an access of the instrumented program may wrap around where the original traps (C19);
until the original traps, the two agree: a call that returns when NaNs are replaced by zero returns the same in the instrumented program, in the same program state, and
a call that returns in the instrumented program does so in the other, or traps there. -/
theorem C72_denan_results_with_offsets {C iface ts m r ge cb} (hD : DenanTarget C iface ts m r ge cb)
    (hoff : ∀ i ∈ bodyTargets m ts, ∀ f c, m.functions[i]? = some f → f.code = .present c → OnlyCode (OffsetsAre iface fun o => o.toNat < 2 ^ 31) c.body) :
    ∃ base : Nat, (∃ f, r.module.functions[base]? = some f ∧ f.exports = [cb.name]) ∧
      ∀ (W A : Type) (N : Num) (K : LibLink) (T : List Table) (X : List (RefType × List (Option Nat))) (H : Imports W) (H' : Imports (World W A))
        (f : Nat) (args : List RVal) (s : Store W) (a : A) (l : Lib) (L d : Nat), DenanCall iface m r ge base N K T X H H' f args s a l d →
          let zeroing := zeroingNaNs C iface ts m H N L
          let instrumented := callF N (machineOf H' r.module.functions) L
          let s' := s.extend T X (s.world, a, l.store)
          (∀ vs s1, zeroing d f args s = .ok vs s1 →
            ∃ a1 l1, instrumented (5 * d + 2) f args s' = .ok vs (s1.extend T X (s1.world, a1, l1.store)) ∧ Lib.Ok l1 ∧ l1.free = l.free ∧ l1.mem.limit = l.mem.limit) ∧
          (∀ vs s1', instrumented d f args s' = .ok vs s1' →
            (∃ s1 a1 l1, zeroing d f args s = .ok vs s1 ∧ s1' = s1.extend T X (s1.world, a1, l1.store) ∧ Lib.Ok l1 ∧ l1.free = l.free ∧ l1.mem.limit = l.mem.limit) ∨
            ∃ s1, zeroing d f args s = .trap s1) := by
  obtain ⟨base, hb, hall⟩ := revising_agrees hD.small hD.documented hD.standard hD.instruments hD.apply hD.valid hD.annotated hD.reserved
  have hoff' : ∀ i ∈ bodyTargets m ts, ∀ f c, m.functions[i]? = some f → f.code = .present c →
      OnlyCode (OffsetsAre iface (fun o => o.toNat < 2 ^ 31 ∧ (false = true → o = 0))) c.body := by
    intro i hi f c hf hc b hb t k info hd ht
    have := hoff i hi f c hf hc b hb t k info hd ht
    cases b <;> first | trivial | exact ⟨this, fun h => by cases h⟩
  refine ⟨base, hb, ?_⟩
  intro W A N K T X H H' f args s a l L d hc zeroing instrumented s'
  obtain ⟨ty, hf, ha⟩ := hc.type
  obtain ⟨B, hR, h1, h2⟩ := hc.room
  obtain ⟨k1, k2⟩ := hall false hoff' W A K N T X B H H' zeroNaN _ _ _ hR (denan_revises hR.good hD.hooks) f ty args s a l hf ha hc.store hc.lib hc.pages hc.segments L d h1 h2
  exact loose_outcomes k1 k2

/-- C72. An intercepted function never returns a NaN. -/
theorem C72_denan_returns_no_nan {C iface ts m r ge cb} (hD : Denanned C iface ts m r ge cb) :
    ∃ base : Nat, (∃ f, r.module.functions[base]? = some f ∧ f.exports = [cb.name]) ∧
      ∀ (W A : Type) (N : Num) (K : LibLink) (T : List Table) (X : List (RefType × List (Option Nat))) (H : Imports W) (H' : Imports (World W A))
        (f : Nat) (args : List RVal) (s : Store W) (a : A) (l : Lib) (L d : Nat), DenanCall iface m r ge base N K T X H H' f args s a l d → f ∈ applyTargets m ts →
        ∀ vs s1', callF N (machineOf H' r.module.functions) L d f args (s.extend T X (s.world, a, l.store)) = .ok vs s1' → ∀ v, .num v ∈ vs → ¬ v.IsNaN := by
  obtain ⟨base, hb, hall⟩ := C72_denan_zeroes_nans hD
  refine ⟨base, hb, ?_⟩
  intro W A N K T X H H' f args s a l L d hc hin vs s1' he v hv
  obtain ⟨s1, a1, l1, e, _⟩ := (hall W A N K T X H H' f args s a l L d hc).2.2.1 vs s1' he
  cases d with
  | zero => cases e
  | succ d =>
    simp only [zeroingNaNs, revisedCall] at e
    split at e
    · cases e
    · rw [if_pos hin] at e
      simp only [revisedRun, replacing] at e
      unfold Res.revised at e
      split at e
      · cases e
        obtain ⟨u, _, hu⟩ := List.mem_map.1 hv
        have := mapNum_notNaN u
        rw [hu] at this
        simpa [RVal.notNaN] using this
      · rename_i hne
        exact absurd e (hne _ _)

/-- C72. If every imported function is intercepted, none is ever handed a NaN: nothing would change if imported functions went wrong on NaNs. -/
theorem C72_imports_get_no_nan {C : Checker} {iface : Interface} {ts : Option (List Nat)} {m : Module} (hall : ∀ i f ns name, m.functions[i]? = some f → f.code = .imported ns name → i ∈ applyTargets m ts)
    (H : Imports W) (N : Num) (L d : Nat) : zeroingNaNs C iface ts m (H.refusing RVal.notNaN) N L d = zeroingNaNs C iface ts m H N L d := by
  unfold zeroingNaNs
  induction d with
  | zero => rfl
  | succ d ih =>
    funext i args s
    simp only [revisedCall, ih]
    cases hf : m.functions[i]? with
    | none => rfl
    | some f =>
      dsimp only
      cases hc : f.code with
      | imported ns name =>
        rw [if_pos (hall i f ns name hf hc), if_pos (hall i f ns name hf hc)]
        simp only [revisedRun, replacing, runImpl, revisedImpl, hc, Imports.refusing]
        rw [if_pos]
        rw [List.all_eq_true]
        intro v hv
        obtain ⟨u, _, rfl⟩ := List.mem_map.1 hv
        exact mapNum_notNaN u
      | present c => simp only [revisedImpl, hc]

/-- C72. A run in which no NaN turns up where the analysis looks is not affected: if the original program, stopped at NaNs there, returns, then the
original returns the same results in the same state, and so does the instrumented program. -/
theorem C72_nan_free_runs_unchanged {C iface ts m r ge cb} (hD : DenanTarget C iface ts m r ge cb)
    (hoff : ∀ i ∈ bodyTargets m ts, ∀ f c, m.functions[i]? = some f → f.code = .present c → OnlyCode (OffsetsAre iface fun o => o.toNat < 2 ^ 31) c.body) :
    ∃ base : Nat, (∃ f, r.module.functions[base]? = some f ∧ f.exports = [cb.name]) ∧
      ∀ (W A : Type) (N : Num) (K : LibLink) (T : List Table) (X : List (RefType × List (Option Nat))) (H : Imports W) (H' : Imports (World W A))
        (f : Nat) (args : List RVal) (s : Store W) (a : A) (l : Lib) (L d : Nat), DenanCall iface m r ge base N K T X H H' f args s a l d → ImportsAgree m Eq H H →
        ∀ vs s1, stoppingAtNaNs C iface ts m H N L d f args s = .ok vs s1 →
          callF N (machineOf H m.functions) L d f args s = .ok vs s1 ∧
          ∃ a1 l1, callF N (machineOf H' r.module.functions) L (5 * d + 2) f args (s.extend T X (s.world, a, l.store)) = .ok vs (s1.extend T X (s1.world, a1, l1.store)) ∧
            Lib.Ok l1 ∧ l1.free = l.free ∧ l1.mem.limit = l.mem.limit := by
  obtain ⟨base, hb, hall⟩ := C72_denan_results_with_offsets hD hoff
  refine ⟨base, hb, ?_⟩
  intro W A N K T X H H' f args s a l L d hc himp vs s1 he
  obtain ⟨ty, hf, ha⟩ := hc.type
  have hS : SameState m.ctx [] [] Eq s s := ⟨hc.store, s.world, rfl, by simp [Store.extend]⟩
  have un : ∀ {o : Res W}, (agreeing m.ctx Eq false false true).Ress m.ctx ty.results (.ok vs s1) o → o = .ok vs s1 := by
    intro o ho
    cases ho with
    | ok hv hs =>
      obtain ⟨_, w, rfl, e⟩ := hs
      rw [e]; simp [Store.extend]
    | fuelR h => cases h
    | trapR h => exact absurd h id
  have h1 := guarded_agrees (g := replacing zeroNaN) (N := N) (L := L) (inter := applyTargets m ts) (inter' := []) (hooked := fun t => (iface.trap t).isSome) (hooked' := fun _ => false) hD.valid hD.annotated himp
    (fun _ => replacing_of_notNaN) (by simp) (by simp) d f ty args s s hf ha hS
  have h2 := guarded_agrees (g := replacing zeroNaN) (N := N) (L := L) (inter := applyTargets m ts) (inter' := applyTargets m ts) (hooked := fun t => (iface.trap t).isSome) (hooked' := fun t => (iface.trap t).isSome)
    hD.valid hD.annotated himp (fun _ => replacing_of_notNaN) (fun _ h => h) (fun _ h => h) d f ty args s s hf ha hS
  unfold stoppingAtNaNs at he
  rw [he] at h1 h2
  rw [revised_nothing (instruments_raises hD.small hD.instruments)] at h1
  exact ⟨un h1, (hall W A N K T X H H' f args s a l L d hc).1 vs s1 (un h2)⟩

/-! ## Examples -/

theorem exNan_denanned : Denanned exNanChecker denanIface none exNan exNanned interfaceGenericApply.1 interfaceGenericApply.2 where
  small := exNan_small
  documented := denanIface_documented
  standard := denanIface_standard
  hooks := fun t => denanIface_hooks
  instruments := exNanned_instruments
  apply := rfl
  valid := exNan_valid
  annotated := exNan_annotated
  reserved := exNan_reserved
  offsets := exNan_offsets

theorem exNan_call (base : Nat) (p : BitVec 32) (x : BitVec 32) : DenanCall denanIface exNan exNanned interfaceGenericApply.1 base exNum exNanLink [exNanTable] [] (fun _ _ _ _ _ => .stuck)
    (exNanHost (denanBody exNum exNanned.module.exported) (denanBefore exNanLink) (denanAfter exNanLink) base) 0 [.i32 p, .num (.f32 x)] exMemStore () exLib 10 where
  type := ⟨_, rfl, ValsOK.nil.cons rfl (by simp [RVal.OK]) |>.cons rfl (by simp [RVal.OK])⟩
  store := exNanStore_ok
  lib := exLib_ok
  pages := by decide
  segments := exNanned_intact _
  room := ⟨36, exNanHost_deployed _ _ _ base, by decide, by decide⟩

-- `main(8, NaN)` stores its second argument and returns the bits it finds: the bits of the NaN in the original, 0 under `denan`.
theorem exNan_zeroed : (match zeroingNaNs exNanChecker denanIface none exNan (fun _ _ _ _ _ => .stuck) exNum 10 10 0 [.i32 8, .num (.f32 0x7fc00001)] exMemStore with
    | .ok vs _ => some vs
    | _ => none) = some [.i32 0] := by decide +kernel

example : ∃ (base : Nat) (s1 : Store Unit) (l1 : Lib),
    callF exNum (machineOf (exNanHost (denanBody exNum exNanned.module.exported) (denanBefore exNanLink) (denanAfter exNanLink) base) exNanned.module.functions) 10 52 0
      [.i32 8, .num (.f32 0x7fc00001)] (exMemStore.extend [exNanTable] [] ((), (), exLib.store)) = .ok [.i32 0] (Store.extend s1 [exNanTable] [] ((), (), Lib.store l1)) := by
  obtain ⟨base, _, h⟩ := C72_denan_zeroes_nans exNan_denanned
  have h := h _ _ _ _ _ _ _ _ _ _ _ _ _ 10 10 (exNan_call base 8 0x7fc00001)
  have hr := exNan_zeroed
  split at hr
  · rename_i vs s1 he
    cases hr
    obtain ⟨a1, l1, e, _⟩ := h.1 _ _ he
    exact ⟨base, s1, l1, e⟩
  · cases hr

-- With 1.0 (0x3f800000) no NaN turns up, and `main(8, 1.0)` returns its bits under `denan` too.
theorem exNan_unaffected : (match stoppingAtNaNs exNanChecker denanIface none exNan (fun _ _ _ _ _ => .stuck) exNum 10 10 0 [.i32 8, .num (.f32 0x3f800000)] exMemStore with
    | .ok vs _ => some vs
    | _ => none) = some [.i32 0x3f800000] := by decide +kernel

example : ∃ (base : Nat) (s1 : Store Unit) (l1 : Lib),
    callF exNum (machineOf (exNanHost (denanBody exNum exNanned.module.exported) (denanBefore exNanLink) (denanAfter exNanLink) base) exNanned.module.functions) 10 52 0
      [.i32 8, .num (.f32 0x3f800000)] (exMemStore.extend [exNanTable] [] ((), (), exLib.store)) = .ok [.i32 0x3f800000] (Store.extend s1 [exNanTable] [] ((), (), Lib.store l1)) := by
  obtain ⟨base, _, h⟩ := C72_nan_free_runs_unchanged exNan_denanned.toDenanTarget exNan_denanned.offsets_below
  have h := h _ _ _ _ _ _ _ _ _ _ _ _ _ 10 10 (exNan_call base 8 0x3f800000) (fun f hf ns name hc => (exNan_noImports hf hc).elim)
  have hr := exNan_unaffected
  split at hr
  · rename_i vs s1 he
    cases hr
    obtain ⟨_, a1, l1, e, _⟩ := h _ _ he
    exact ⟨base, s1, l1, e⟩
  · cases hr

-- C72_denan_results_with_offsets: whatever `main(8, x)` returns when NaNs are replaced by zero, it returns under `denan`.
example (x : BitVec 32) (vs : List RVal) (s1 : Store Unit) (h : zeroingNaNs exNanChecker denanIface none exNan (fun _ _ _ _ _ => .stuck) exNum 10 10 0 [.i32 8, .num (.f32 x)] exMemStore = .ok vs s1) :
    ∃ (base : Nat) (l1 : Lib), callF exNum (machineOf (exNanHost (denanBody exNum exNanned.module.exported) (denanBefore exNanLink) (denanAfter exNanLink) base) exNanned.module.functions) 10 52 0
      [.i32 8, .num (.f32 x)] (exMemStore.extend [exNanTable] [] ((), (), exLib.store)) = .ok vs (Store.extend s1 [exNanTable] [] ((), (), Lib.store l1)) := by
  obtain ⟨base, _, hall⟩ := C72_denan_results_with_offsets exNan_denanned.toDenanTarget exNan_denanned.offsets_below
  obtain ⟨a1, l1, e, _⟩ := (hall _ _ _ _ _ _ _ _ _ _ _ _ _ 10 10 (exNan_call base 8 x)).1 _ _ h
  exact ⟨base, l1, e⟩

-- C72_denan_returns_no_nan: `main` is intercepted.
example : 0 ∈ applyTargets exNan none := by rw [exNan_applyTargets]; simp

/-- A program that imports `env.sink(x: f32)`. -/
def exSink : Module where
  functions := [⟨⟨[.f32], []⟩, .imported "env" "sink", ["sink"]⟩]
  tables := []
  elements := []
  memories := []
  globals := []
  datas := []
  start := none

-- C72_imports_get_no_nan: the import is intercepted. Called with a NaN, it is handed 0.
example : (∀ i f ns name, exSink.functions[i]? = some f → f.code = .imported ns name → i ∈ applyTargets exSink none) ∧
    ∀ (H : Imports Unit) s, zeroingNaNs exNanChecker denanIface none exSink H exNum 10 1 0 [.num (.f32 0x7fc00001)] s =
      (H "env" "sink" (fun _ _ _ => .fuel) [.num (.f32 0)] s).revised (replacing zeroNaN) := by
  have ht : applyTargets exSink none = [0] := by decide +kernel
  refine ⟨?_, ?_⟩
  · intro i f ns name hf hc
    rw [ht]
    match i with
    | 0 => simp
    | i + 1 => simp [exSink] at hf
  · intro H s
    have hz : replacing zeroNaN [.num (.f32 0x7fc00001)] = some [.num (.f32 0)] := by
      simp [replacing, RVal.mapNum, zeroNaN, Val.IsNaN]
    unfold zeroingNaNs
    simp only [revisedCall, exSink, List.getElem?_cons_zero, ht, revisedRun, hz, runImpl, revisedImpl]
    have : (0 : Nat) ∈ applyTargets exSink none := by rw [ht]; simp
    simp only [exSink] at this
    rw [if_pos this]

end Wastrum
