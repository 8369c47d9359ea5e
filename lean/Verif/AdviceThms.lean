import Verif.ShippedForward
/-!
# What the advice of an analysis written with the Rust library is told (C57)
-/

set_option linter.unusedSimpArgs false
set_option linter.unusedVariables false

namespace Wastrum

variable {W : Type}

/-! ## Specification: programs running with advice

Advice is run at the instructions of the original program, and is handed the instruction's operands, immediates and place directly. -/

/-- The place of an instruction, as the library represents it. (Its accessors are exchanged: C22.) -/
def Meta.place (m : Meta) : Location := .new (BitVec.ofNat 64 m.fidx) (BitVec.ofNat 64 m.iidx)

/-- Run the advice `mk` makes of the top `k` operands (deepest first), if the kind `t` is advised. What the advice returns takes the place
of the operands; if it returns something of another type than the kind's, that is a trap (a Rust `unwrap`). Operands of which no advice can be made
are excluded by validity. -/
def tell (advised : Trap → Bool) (run : Advice → Store W → Res W) (t : Trap) (k : Nat) (mk : List RVal → Option Advice) (c : Cfg W) : Out W :=
  if advised t then
    match mk (c.stack.take k).reverse with
    | none => .stuck
    | some a => match run a c.store with
      | .ok vs s => if vs.map RVal.type = t.results then .norm { c with stack := vs.reverse ++ c.stack.drop k, store := s } else .trap s
      | .trap s => .trap s
      | .stuck => .stuck
      | .fuel => .fuel
  else .norm c

/-- The same for instructions that have no hook for some types of operands. -/
def tellO (advised : Trap → Bool) (run : Advice → Store W → Res W) (t : Option Trap) (k : Nat) (mk : List RVal → Option Advice) (c : Cfg W) : Out W :=
  match t with
  | none => .norm c
  | some t => tell advised run t k mk c

/-- Advice that is shown no operand. -/
def notified (a : Advice) : List RVal → Option Advice
  | [] => some a
  | _ => none

/-- Advice that is shown an `i32`. -/
def shownI32 (a : BitVec 32 → Advice) : List RVal → Option Advice
  | [.num (.i32 x)] => some (a x)
  | _ => none

/-- Advice that is shown a number of type `t`. -/
def shownVal (t : ValType) (a : Val → Advice) : List RVal → Option Advice
  | [.num v] => if v.type = t then some (a v) else none
  | _ => none

/-- Advice that is shown two numbers of type `t`. -/
def shownPair (t : ValType) (a : Val → Val → Advice) : List RVal → Option Advice
  | [.num v, .num w] => if v.type = t ∧ w.type = t then some (a v w) else none
  | _ => none

/-- Advice that is shown an address and a number of type `t`. -/
def shownStore (t : ValType) (a : BitVec 32 → Val → Advice) : List RVal → Option Advice
  | [.num (.i32 x), .num v] => if v.type = t then some (a x v) else none
  | _ => none

/-- The library's name for an access to a global. -/
def GlobalOp.toStd : GlobalOp → GlobOp
  | .get => .get
  | .set => .set

/-- Advice on an access to a local or a global of type `t` through hook `hook t`. -/
def tellAccess (advised : Trap → Bool) (run : Advice → Store W → Res W) (t : Option ValType) (hook : ValType → Option Trap) (a : Val → Advice) (c : Cfg W) : Out W :=
  match t with
  | none => .norm c
  | some t => tellO advised run (hook t) 1 (shownVal t a) c

/-- Advice before an instruction. -/
def tellBefore (advised : Trap → Bool) (run : Advice → Store W → Res W) (m : Meta) (b : Basic) (c : Cfg W) : Out W :=
  match b with
  | .br l => tell advised run .brTrap 0 (notified (.br (BitVec.ofNat 64 l) m.place)) c
  | .brIf l => tell advised run .brIfTrap 1 (shownI32 fun k => .brIf k (BitVec.ofNat 32 l) m.place) c
  | .brTable ls d => match c.stack with
    | .num (.i32 x) :: _ => tell advised run .brTableTrap 1 (shownI32 fun k => .brTable k (BitVec.ofNat 32 (tableLabel ls d x)) (BitVec.ofNat 32 d) m.place) c
    | _ => .stuck
  | .call f => tell advised run .preTrapCall 0 (notified (.callPre (BitVec.ofNat 32 f) m.place)) c
  | .callIndirect _ tbl => tell advised run .preTrapCallIndirect 1 (shownI32 fun k => .callIndirectPre k (BitVec.ofNat 32 tbl) m.place) c
  | .ret => tell advised run .returnTrap 0 (notified (.ret m.place)) c
  | .drop => tell advised run .dropTrap 0 (notified (.drop m.place)) c
  | .select | .typedSelect _ => tell advised run .select 1 (shownI32 fun k => .select k m.place) c
  | .loc .set i => tellAccess advised run m.ty.writes (localTrap .set) (fun v => .loc v (BitVec.ofNat 64 i) .set m.place) c
  | .loc .tee i => tellAccess advised run m.ty.tees (localTrap .tee) (fun v => .loc v (BitVec.ofNat 64 i) .tee m.place) c
  | .glob .set i => tellAccess advised run m.ty.writes (globalTrap .set) (fun v => .glob v (BitVec.ofNat 64 i) .set m.place) c
  | _ => .norm c

/-- Advice after an instruction. -/
def tellAfter (advised : Trap → Bool) (run : Advice → Store W → Res W) (m : Meta) (b : Basic) (c : Cfg W) : Out W :=
  match b with
  | .call f => tell advised run .postTrapCall 0 (notified (.callPost (BitVec.ofNat 32 f) m.place)) c
  | .callIndirect _ tbl => tell advised run .postTrapCallIndirect 0 (notified (.callIndirectPost (BitVec.ofNat 32 tbl) m.place)) c
  | .const v => tellO advised run (constTrap v.type) 1 (shownVal v.type fun v => .const v m.place) c
  | .memorySize i => tell advised run .memorySize 1 (shownI32 fun k => .memorySize (.i32 k) (BitVec.ofNat 64 i) m.place) c
  | .loc .get i => tellAccess advised run m.ty.reads (localTrap .get) (fun v => .loc v (BitVec.ofNat 64 i) .get m.place) c
  | .glob .get i => tellAccess advised run m.ty.reads (globalTrap .get) (fun v => .glob v (BitVec.ofNat 64 i) .get m.place) c
  | _ => .norm c

/-- Advice that performs an operation instead of the program. -/
def tellInstead (E : Env W) (advised : Trap → Bool) (run : Advice → Store W → Res W) (m : Meta) (b : Basic) (c : Cfg W) : Out W :=
  let instead (t : Option Trap) (k : Nat) (mk : List RVal → Option Advice) : Out W :=
    match t with
    | none => step E b c
    | some t => if advised t then tell advised run t k mk c else step E b c
  match b with
  | .unary op => instead (unaryTrap op.sig) 1 (shownVal op.sig.1 fun v => .unary op v m.place)
  | .binary op => instead (binaryTrap op.sig) 2 (shownPair op.sig.1 fun v w => .binary op v w m.place)
  | .load op ma => instead (loadTrap op.ty) 1 (shownI32 fun x => .load x (ma.offset.setWidth 64) op m.place)
  | .store op ma => instead (storeTrap op.ty) 2 (shownStore op.ty fun x v => .store x v (ma.offset.setWidth 64) op m.place)
  | .memoryGrow i => instead (some .memoryGrow) 1 (shownI32 fun k => .memoryGrow (.i32 k) (BitVec.ofNat 64 i) m.place)
  | _ => step E b c

mutual
/-- Execution of an instruction with advice. -/
def toldI (E : Env W) (advised : Trap → Bool) (run : Advice → Store W → Res W) : TI → Cfg W → Out W
  | .basic m b, c => (tellBefore advised run m b c).bind fun c => (tellInstead E advised run m b c).bind (tellAfter advised run m b)
  | .block m t body, c =>
    inBlock t (fun c => (tell advised run .preBlock 0 (notified (.blockPre (BitVec.ofNat 32 t.inputs.length) (BitVec.ofNat 32 t.results.length) m.place)) c).bind fun c =>
      (toldL E advised run body c).bind (tell advised run .postBlock 0 (notified (.blockPost m.place)))) c
  | .loop m t body, c =>
    inLoop t (fun c => (tell advised run .preLoop 0 (notified (.loopPre (BitVec.ofNat 32 t.inputs.length) (BitVec.ofNat 32 t.results.length) m.place)) c).bind fun c =>
      (toldL E advised run body c).bind (tell advised run .postLoop 0 (notified (.loopPost m.place)))) E.loopFuel c
  | .ifThen m t thn, c =>
    (tell advised run .ifThenTrap 1 (shownI32 fun k => .ifThen k (BitVec.ofNat 32 t.inputs.length) (BitVec.ofNat 32 t.results.length) m.place) c).bind
      (branchOn (inBlock t fun c => (toldL E advised run thn c).bind (tell advised run .ifThenPostTrap 0 (notified (.ifThenPost m.place))))
        (inBlock t (tell advised run .ifThenPostTrap 0 (notified (.ifThenPost m.place)))))
  | .ifElse m t thn els, c =>
    (tell advised run .ifThenElseTrap 1 (shownI32 fun k => .ifThenElse k (BitVec.ofNat 32 t.inputs.length) (BitVec.ofNat 32 t.results.length) m.place) c).bind
      (branchOn (inBlock t fun c => (toldL E advised run thn c).bind (tell advised run .ifThenElsePostTrap 0 (notified (.ifThenElsePost m.place))))
        (inBlock t fun c => (toldL E advised run els c).bind (tell advised run .ifThenElsePostTrap 0 (notified (.ifThenElsePost m.place)))))
/-- Execution of a body with advice. -/
def toldL (E : Env W) (advised : Trap → Bool) (run : Advice → Store W → Res W) : List TI → Cfg W → Out W
  | [], c => .norm c
  | i :: l, c => (toldI E advised run i c).bind (toldL E advised run l)
end

/-- Calls in a program (the functions `M`) in which the bodies given by `J` run with advice. The advice may call functions of the program; like
them it may only be as deep as there are calls left. -/
def toldCallF (N : Num) (M : Machine W) (J : Nat → Option (List TI)) (advised : Trap → Bool) (body : Advice → (Nat → List RVal → Store W → Res W) → Store W → Res W)
    (L : Nat) : Nat → Nat → List RVal → Store W → Res W
  | 0, _, _, _ => .fuel
  | d + 1, f, args, s => match M f with
    | none => .stuck
    | some (_, .host h) => h (toldCallF N M J advised body L d) args s
    | some (ty, .code locals code) =>
      let E : Env W := ⟨N, fun g => (M g).map (·.1), toldCallF N M J advised body L d, L⟩
      let run : Advice → Store W → Res W := fun a s => match d with
        | 0 => .fuel
        | d + 1 => body a (toldCallF N M J advised body L d) s
      match J f with
      | some b => runBody ty locals (toldL E advised run b) args s
      | none => runBody ty locals (code E) args s

/-! ## Proof -/

/-- The hooks hand the arguments, decoded, to the advice. -/
def Decodes (E : Env W) (σ : Sel) (run : Advice → Store W → Res W) : Prop :=
  ∀ t k, σ t = some k → ∀ args s a, stdEntry t args = some a →
    E.callF k args s = match run a s with
      | .ok vs s1 => if vs.map RVal.type = t.results then .ok vs s1 else .trap s1
      | o => o

/-- The arguments of a hook decode to the advice. -/
def Encodes (t : Trap) (m : Meta) (info : List RVal) (mk : List RVal → Option Advice) (vs : List RVal) : Prop :=
  if (vs ++ info ++ [nI64 m.fidx, nI64 m.iidx]).map RVal.type = t.args then
    ∃ a, mk vs = some a ∧ stdEntry t (vs ++ info ++ [nI64 m.fidx, nI64 m.iidx]) = some a
  else mk vs = none

theorem ask_tell {E : Env W} {σ : Sel} {run : Advice → Store W → Res W} (h : Decodes E σ run) {t : Trap} {m : Meta} {k : Nat} {info : List RVal}
    {mk : List RVal → Option Advice} {c : Cfg W} (he : Encodes t m info mk (c.stack.take k).reverse) :
    ask E σ m t k info c = tell (fun t => (σ t).isSome) run t k mk c := by
  unfold ask tell
  cases hσ : σ t with
  | none => simp [hσ]
  | some h' =>
    simp only [hσ, Option.isSome_some, if_true]
    unfold Encodes at he
    split at he
    · rename_i hty
      obtain ⟨a, ha, hd⟩ := he
      rw [if_pos hty, ha, h t h' hσ _ _ _ hd]
      dsimp only
      cases run a c.store with
      | ok vs s =>
        dsimp only
        by_cases hv : vs.map RVal.type = t.results
        · simp only [if_pos hv]
        · simp only [if_neg hv]
      | _ => rfl
    · rename_i hty
      rw [if_neg hty, he]

theorem take_short {c : List RVal} {k : Nat} : (c.take k).reverse.length ≤ k := by simp; omega

theorem Encodes.yes {t m info mk vs} {a : Advice} (h : (vs ++ info ++ [nI64 m.fidx, nI64 m.iidx]).map RVal.type = t.args) (h1 : mk vs = some a)
    (h2 : stdEntry t (vs ++ info ++ [nI64 m.fidx, nI64 m.iidx]) = some a) : Encodes t m info mk vs := by
  unfold Encodes
  rw [if_pos h]
  exact ⟨a, h1, h2⟩

theorem Encodes.no {t m info mk vs} (h : (vs ++ info ++ [nI64 m.fidx, nI64 m.iidx]).map RVal.type ≠ t.args) (h1 : mk vs = Option.none) : Encodes t m info mk vs := by
  unfold Encodes
  rw [if_neg h]
  exact h1

theorem Encodes.none {t m info a vs} (hi : (info ++ [nI64 m.fidx, nI64 m.iidx]).map RVal.type = t.args) (he : stdEntry t (info ++ [nI64 m.fidx, nI64 m.iidx]) = some a)
    (hl : vs.length ≤ 0) : Encodes t m info (notified a) vs := by
  cases vs with
  | cons _ _ => simp at hl
  | nil =>
    exact .yes hi rfl he

theorem Encodes.i32 {t m info a vs} {args : List ValType} (ht : t.args = .i32 :: args) (hi : (info ++ [nI64 m.fidx, nI64 m.iidx]).map RVal.type = args)
    (he : ∀ x, stdEntry t (.num (.i32 x) :: info ++ [nI64 m.fidx, nI64 m.iidx]) = some (a x)) (hl : vs.length ≤ 1) : Encodes t m info (shownI32 a) vs := by
  have ty' : ∀ vs : List RVal, (vs ++ info ++ [nI64 m.fidx, nI64 m.iidx]).map RVal.type = vs.map RVal.type ++ args := fun vs => by
    rw [List.append_assoc, List.map_append, hi]
  match vs with
  | [] => exact .no (fun h => by rw [ty', ht] at h; have := congrArg List.length h; simp at this) rfl
  | [.num (.i32 x)] => exact .yes (by rw [ty', ht]; rfl) rfl (he x)
  | [.num (.i64 _)] | [.num (.f32 _)] | [.num (.f64 _)] | [.ref _ _] => exact .no (fun h => by rw [ty', ht] at h; cases (List.cons.inj h).1) rfl
  | _ :: _ :: _ => simp at hl

theorem Encodes.val {t m info a vs ty} {args : List ValType} (ht : t.args = ty :: args) (hn : ∀ r, ty ≠ .ref r) (hi : (info ++ [nI64 m.fidx, nI64 m.iidx]).map RVal.type = args)
    (he : ∀ v : Val, v.type = ty → stdEntry t (.num v :: info ++ [nI64 m.fidx, nI64 m.iidx]) = some (a v)) (hl : vs.length ≤ 1) : Encodes t m info (shownVal ty a) vs := by
  have ty' : ∀ vs : List RVal, (vs ++ info ++ [nI64 m.fidx, nI64 m.iidx]).map RVal.type = vs.map RVal.type ++ args := fun vs => by
    rw [List.append_assoc, List.map_append, hi]
  match vs with
  | [] => exact .no (fun h => by rw [ty', ht] at h; have := congrArg List.length h; simp at this) rfl
  | [.num v] =>
    by_cases hv : v.type = ty
    · exact .yes (by rw [ty', ht]; simp [RVal.type, hv]) (by simp [shownVal, hv]) (he v hv)
    · exact .no (fun h => by rw [ty', ht] at h; exact hv (List.cons.inj h).1) (by simp [shownVal, hv])
  | [.ref r _] => exact .no (fun h => by rw [ty', ht] at h; exact hn r (List.cons.inj h).1.symm) rfl
  | _ :: _ :: _ => simp at hl

theorem Encodes.pair {t m info a vs ty} {args : List ValType} (ht : t.args = ty :: ty :: args) (hn : ∀ r, ty ≠ .ref r) (hi : (info ++ [nI64 m.fidx, nI64 m.iidx]).map RVal.type = args)
    (he : ∀ v w : Val, v.type = ty → w.type = ty → stdEntry t (.num v :: .num w :: info ++ [nI64 m.fidx, nI64 m.iidx]) = some (a v w)) (hl : vs.length ≤ 2) :
    Encodes t m info (shownPair ty a) vs := by
  have ty' : ∀ vs : List RVal, (vs ++ info ++ [nI64 m.fidx, nI64 m.iidx]).map RVal.type = vs.map RVal.type ++ args := fun vs => by
    rw [List.append_assoc, List.map_append, hi]
  match vs with
  | [] => exact .no (fun h => by rw [ty', ht] at h; have := congrArg List.length h; simp at this; omega) rfl
  | [.num (.i32 _)] | [.num (.i64 _)] | [.num (.f32 _)] | [.num (.f64 _)] | [.ref _ _] => exact .no (fun h => by rw [ty', ht] at h; have := congrArg List.length h; simp at this) rfl
  | [.num v, .num w] =>
    by_cases hv : v.type = ty ∧ w.type = ty
    · exact .yes (by rw [ty', ht]; simp [RVal.type, hv]) (by simp [shownPair, hv]) (he v w hv.1 hv.2)
    · exact .no (fun h => by rw [ty', ht] at h; exact hv ⟨(List.cons.inj h).1, (List.cons.inj (List.cons.inj h).2).1⟩) (by simp only [shownPair, if_neg hv])
  | [.ref r _, _] => exact .no (fun h => by rw [ty', ht] at h; exact hn r (List.cons.inj h).1.symm) rfl
  | [.num _, .ref r _] => exact .no (fun h => by rw [ty', ht] at h; exact hn r (List.cons.inj (List.cons.inj h).2).1.symm) rfl
  | _ :: _ :: _ :: _ => simp at hl

theorem Encodes.store {t m info a vs ty} {args : List ValType} (ht : t.args = .i32 :: ty :: args) (hn : ∀ r, ty ≠ .ref r) (hi : (info ++ [nI64 m.fidx, nI64 m.iidx]).map RVal.type = args)
    (he : ∀ x (v : Val), v.type = ty → stdEntry t (.num (.i32 x) :: .num v :: info ++ [nI64 m.fidx, nI64 m.iidx]) = some (a x v)) (hl : vs.length ≤ 2) :
    Encodes t m info (shownStore ty a) vs := by
  have ty' : ∀ vs : List RVal, (vs ++ info ++ [nI64 m.fidx, nI64 m.iidx]).map RVal.type = vs.map RVal.type ++ args := fun vs => by
    rw [List.append_assoc, List.map_append, hi]
  match vs with
  | [] => exact .no (fun h => by rw [ty', ht] at h; have := congrArg List.length h; simp at this; omega) rfl
  | [.num (.i32 _)] | [.num (.i64 _)] | [.num (.f32 _)] | [.num (.f64 _)] | [.ref _ _] => exact .no (fun h => by rw [ty', ht] at h; have := congrArg List.length h; simp at this) rfl
  | [.num (.i32 x), .num v] =>
    by_cases hv : v.type = ty
    · exact .yes (by rw [ty', ht]; simp [RVal.type, hv]; rfl) (by simp [shownStore, hv]) (he x v hv)
    · exact .no (fun h => by rw [ty', ht] at h; exact hv (List.cons.inj (List.cons.inj h).2).1) (by simp only [shownStore, if_neg hv])
  | [.num (.i32 _), .ref r _] => exact .no (fun h => by rw [ty', ht] at h; exact hn r (List.cons.inj (List.cons.inj h).2).1.symm) rfl
  | [.num (.i64 _), _] | [.num (.f32 _), _] | [.num (.f64 _), _] | [.ref _ _, _] => exact .no (fun h => by rw [ty', ht] at h; cases (List.cons.inj h).1) rfl
  | _ :: _ :: _ :: _ => simp at hl

section
variable {E : Env W} {σ : Sel} {run : Advice → Store W → Res W} (hE : Decodes E σ run)
include hE

theorem access_told {op : LocalOp} {m : Meta} {t : Option ValType} {i : Nat} (c : Cfg W) :
    askO E σ m (t.bind (localTrap op)) 1 [nI64 i] c = tellAccess (fun t => (σ t).isSome) run t (localTrap op) (fun v => .loc v (BitVec.ofNat 64 i) op m.place) c := by
  cases t with
  | none => rfl
  | some t =>
    simp only [Option.bind_some, tellAccess]
    cases t with
    | ref r => cases op <;> rfl
    | _ =>
      cases op <;> (simp only [localTrap, askO, tellO]; refine ask_tell hE (.val rfl (by simp) rfl (fun v hv => ?_) take_short); cases v <;> first | rfl | cases hv)

theorem glob_told {op : GlobalOp} {m : Meta} {t : Option ValType} {i : Nat} (c : Cfg W) :
    askO E σ m (t.bind (globalTrap op)) 1 [nI64 i] c = tellAccess (fun t => (σ t).isSome) run t (globalTrap op) (fun v => .glob v (BitVec.ofNat 64 i) op.toStd m.place) c := by
  cases t with
  | none => rfl
  | some t =>
    simp only [Option.bind_some, tellAccess]
    cases t with
    | ref r => cases op <;> rfl
    | _ =>
      cases op <;> (simp only [globalTrap, askO, tellO]; refine ask_tell hE (.val rfl (by simp) rfl (fun v hv => ?_) take_short); cases v <;> first | rfl | cases hv)

theorem before_told (m : Meta) (b : Basic) (c : Cfg W) : askBefore E σ m b c = tellBefore (fun t => (σ t).isSome) run m b c := by
  unfold askBefore tellBefore
  split
  · exact ask_tell hE (.none rfl rfl take_short)
  · exact ask_tell hE (.i32 rfl rfl (fun _ => rfl) take_short)
  · dsimp only
    split
    · rename_i hc
      simp only [hc]
      exact ask_tell hE (.i32 rfl rfl (fun _ => rfl) take_short)
    · rename_i hc
      split
      · exact absurd ‹_› (hc _ _)
      · rfl
  · exact ask_tell hE (.none rfl rfl take_short)
  · exact ask_tell hE (.i32 rfl rfl (fun _ => rfl) take_short)
  · exact ask_tell hE (.none rfl rfl take_short)
  · exact ask_tell hE (.none rfl rfl take_short)
  · exact ask_tell hE (.i32 rfl rfl (fun _ => rfl) take_short)
  · exact ask_tell hE (.i32 rfl rfl (fun _ => rfl) take_short)
  · exact access_told hE c
  · exact access_told hE c
  · exact glob_told hE c
  · split <;> first | rfl | (exfalso; simp_all; done)

theorem after_told (m : Meta) (b : Basic) (c : Cfg W) : askAfter E σ m b c = tellAfter (fun t => (σ t).isSome) run m b c := by
  unfold askAfter tellAfter
  split
  · exact ask_tell hE (.none rfl rfl take_short)
  · exact ask_tell hE (.none rfl rfl take_short)
  · rename_i v
    cases v <;> (simp only [Val.type, constTrap, askO, tellO]; refine ask_tell hE (.val rfl (by simp) rfl (fun v hv => ?_) take_short); cases v <;> first | rfl | cases hv)
  · exact ask_tell hE (.i32 rfl rfl (fun _ => rfl) take_short)
  · exact access_told hE c
  · exact glob_told hE c
  · split <;> first | rfl | (exfalso; simp_all; done)

theorem instead_told (m : Meta) (b : Basic) (c : Cfg W) : perform E σ m b c = tellInstead E (fun t => (σ t).isSome) run m b c := by
  unfold perform tellInstead
  have key : ∀ (t : Option Trap) (k : Nat) (info : List RVal) (mk : List RVal → Option Advice), (∀ t', t = some t' → ask E σ m t' k info c = tell (fun t => (σ t).isSome) run t' k mk c) →
      (match t with | none => step E b c | some t => if (σ t).isSome then ask E σ m t k info c else step E b c) =
      match t with | none => step E b c | some t => if (σ t).isSome then tell (fun t => (σ t).isSome) run t k mk c else step E b c := by
    intro t k info mk h
    cases t with
    | none => rfl
    | some t => simp only [h t rfl]
  dsimp only
  split
  · rename_i op
    refine key _ _ _ _ fun t ht => ?_
    have h2 : t.args = op.sig.1 :: [.i32, .i64, .i64] ∧ ∀ r, op.sig.1 ≠ .ref r := by cases op <;> (cases ht; exact ⟨rfl, by simp [UnaryOp.sig]⟩)
    refine ask_tell hE (.val h2.1 h2.2 rfl (fun v hv => ?_) take_short)
    exact (stdEntry_unary ht hv _ _ _).trans (by rw [(C17_unary_codes _ op).2 rfl]; rfl)
  · rename_i op
    refine key _ _ _ _ fun t ht => ?_
    have h2 : t.args = op.sig.1 :: op.sig.1 :: [.i32, .i64, .i64] ∧ ∀ r, op.sig.1 ≠ .ref r := by cases op <;> (cases ht; exact ⟨rfl, by simp [BinaryOp.sig]⟩)
    refine ask_tell hE (.pair h2.1 h2.2 rfl (fun v w hv hw => ?_) take_short)
    exact (stdEntry_binary ht hv hw _ _ _).trans (by rw [(C17_binary_codes _ op).2 rfl]; rfl)
  · rename_i op ma
    refine key _ _ _ _ fun t ht => ?_
    have h2 : t.args = [.i32, .i64, .i32, .i64, .i64] := by cases op <;> (cases ht; rfl)
    refine ask_tell hE (.i32 h2 rfl (fun x => ?_) take_short)
    exact (stdEntry_load ht _ _ _ _ _).trans (by rw [(C17_load_codes _ op).2 rfl]; rfl)
  · rename_i op ma
    refine key _ _ _ _ fun t ht => ?_
    have h2 : t.args = .i32 :: op.ty :: [.i64, .i32, .i64, .i64] ∧ ∀ r, op.ty ≠ .ref r := by cases op <;> (cases ht; exact ⟨rfl, by simp [StoreOp.ty]⟩)
    refine ask_tell hE (.store h2.1 h2.2 rfl (fun x v hv => ?_) take_short)
    exact (stdEntry_store ht hv _ _ _ _ _).trans (by rw [(C17_store_codes _ op).2 rfl]; rfl)
  · refine key (some .memoryGrow) _ _ _ fun t ht => ?_
    cases ht
    exact ask_tell hE (.i32 rfl rfl (fun _ => rfl) take_short)
  · split <;> first | rfl | (exfalso; simp_all; done)

mutual
theorem hdenI_told (i : TI) (c : Cfg W) : hdenI E σ i c = toldI E (fun t => (σ t).isSome) run i c := by
  match i with
  | .basic m b =>
    simp only [hdenI, toldI, before_told hE]
    congr 1
    funext c
    rw [instead_told hE]
    congr 1
    funext c
    exact after_told hE m b c
  | .block m t body =>
    simp only [hdenI, toldI]
    congr 1
    funext c
    rw [ask_tell hE (.none rfl rfl take_short)]
    congr 1
    funext c
    rw [hdenL_told body c]
    congr 1
    funext c
    exact ask_tell hE (.none rfl rfl take_short)
  | .loop m t body =>
    simp only [hdenI, toldI]
    congr 1
    funext c
    rw [ask_tell hE (.none rfl rfl take_short)]
    congr 1
    funext c
    rw [hdenL_told body c]
    congr 1
    funext c
    exact ask_tell hE (.none rfl rfl take_short)
  | .ifThen m t thn =>
    simp only [hdenI, toldI]
    rw [ask_tell hE (.i32 rfl rfl (fun _ => rfl) take_short)]
    have h0 : ask E σ m .ifThenPostTrap 0 [] = tell (fun t => (σ t).isSome) run .ifThenPostTrap 0 (notified (.ifThenPost m.place)) := by
      funext c
      exact ask_tell hE (.none rfl rfl take_short)
    have h1 : hdenL E σ thn = toldL E (fun t => (σ t).isSome) run thn := by
      funext c
      exact hdenL_told thn c
    rw [h0, h1]
    rfl
  | .ifElse m t thn els =>
    simp only [hdenI, toldI]
    rw [ask_tell hE (.i32 rfl rfl (fun _ => rfl) take_short)]
    have h0 : ask E σ m .ifThenElsePostTrap 0 [] = tell (fun t => (σ t).isSome) run .ifThenElsePostTrap 0 (notified (.ifThenElsePost m.place)) := by
      funext c
      exact ask_tell hE (.none rfl rfl take_short)
    have h1 : hdenL E σ thn = toldL E (fun t => (σ t).isSome) run thn := by
      funext c
      exact hdenL_told thn c
    have h2 : hdenL E σ els = toldL E (fun t => (σ t).isSome) run els := by
      funext c
      exact hdenL_told els c
    rw [h0, h1, h2]
    rfl
theorem hdenL_told (l : List TI) (c : Cfg W) : hdenL E σ l c = toldL E (fun t => (σ t).isSome) run l c := by
  match l with
  | [] => rfl
  | i :: l =>
    simp only [hdenL, toldL]
    rw [hdenI_told i c]
    congr 1
    funext c
    exact hdenL_told l c
end

end

/-- C57. An analysis written with the Rust library (its advice, of any behaviour and with any state, is `body`), linked with an instrumented program: every call
in it does what it does in the original program (`M`) when target functions run with advice at their instructions. Advice is told the instruction's
operands, immediates and place, and its result is used in the operands' place; functions that are no targets run as they are. -/
theorem C57_advice_is_told_the_instruction {C iface ts m r} (hs : SmallModule m) (hst : iface.Standard) (hg : iface.generic = none) (hd : iface.Documented)
    (h : Instruments C iface ts m r) {body : Advice → (Nat → List RVal → Store W → Res W) → Store W → Res W} {H : Imports W} (hH : LinkedTo iface body H) (N : Num) (L d f : Nat)
    (args : List RVal) (s : Store W) :
    let M := machineOf H (m.functions ++ r.module.functions.drop m.functions.length)
    let bodies := fun i => if i ∈ bodyTargets m ts then some (bodyOf C m i) else none
    callF N (machineOf H r.module.functions) L d f args s = toldCallF N M bodies (fun t => (iface.trap t).isSome) body L d f args s := by
  intro M bodies
  rw [C09_instrumented_is_interposed hs hst hg h]
  revert f args s
  have hU : ∀ i, underAnalysis C m (bodyTargets m ts) H (hookSel iface m.functions.length) (r.module.functions.drop m.functions.length) i =
      match M i, bodies i with
      | some (ty, .code locals _), some b => some (ty, .code locals fun E => hdenL E (hookSel iface m.functions.length) b)
      | x, _ => x := by
    intro i
    by_cases hi : i < m.functions.length
    · have hm : M i = some (m.functions[i].type, implOf H m.functions[i]) := by
        simp only [M, machineOf]
        rw [List.getElem?_append_left hi, List.getElem?_eq_getElem hi]
        rfl
      rw [hm]
      simp only [underAnalysis, bodies, List.getElem?_eq_getElem hi]
      unfold implOf
      cases hc : m.functions[i].code with
      | imported ns name => rfl
      | present c => by_cases ht : i ∈ bodyTargets m ts <;> simp only [ht, if_true, if_false]
    · have hn : bodies i = none := by
        refine if_neg fun hm => ?_
        obtain ⟨g, hg, _⟩ := mem_bodyTargets.1 hm
        exact hi (List.getElem?_eq_some_iff.1 hg).1
      rw [hn]
      simp only [underAnalysis, List.getElem?_eq_none (Nat.le_of_not_lt hi), M, machineOf]
      rw [List.getElem?_append_right (by omega)]
      split
      · rename_i h2; cases h2
      · rfl
  have hT : ∀ i, (underAnalysis C m (bodyTargets m ts) H (hookSel iface m.functions.length) (r.module.functions.drop m.functions.length) i).map (·.1) = (M i).map (·.1) := by
    intro i
    rw [hU]
    split
    · rename_i h1 _; rw [h1]; rfl
    · rfl
  have hadv : (fun t => (hookSel iface m.functions.length t).isSome) = fun t => (iface.trap t).isSome := by
    funext t
    unfold hookSel
    split <;> rename_i h0
    · simp [h0]
    · simpa using h0
  have main : ∀ d, callF N (underAnalysis C m (bodyTargets m ts) H (hookSel iface m.functions.length) (r.module.functions.drop m.functions.length)) L d =
      toldCallF N M bodies (fun t => (iface.trap t).isSome) body L d := by
    intro d
    induction d using Nat.strongRecOn with
    | ind d ih =>
    match d, ih with
    | 0, _ => rfl
    | d + 1, ih =>
    funext f args s
    have ihd := ih d (by omega)
    simp only [callF, toldCallF, hT, ihd]
    rw [hU]
    cases hM : M f with
    | none => rfl
    | some x =>
      obtain ⟨ty, imp⟩ := x
      cases imp with
      | host g => rfl
      | code locals code =>
        cases hb : bodies f with
        | none => rfl
        | some b =>
          dsimp only
          congr 1
          funext c
          rw [← hadv]
          refine hdenL_told (fun t k hk args s a ha => ?_) b c
          obtain ⟨e, he⟩ : ∃ e, iface.trap t = some e := by
            unfold hookSel at hk
            split at hk
            · rename_i h0; exact Option.isSome_iff_exists.1 h0
            · cases hk
          obtain ⟨k', hk', hge, hmk⟩ := (C09_hooks_are_the_analysis hs h H t).1 e he
          rw [hk] at hk'
          cases hk'
          cases hd t e he
          match d, ih with
          | 0, _ => rfl
          | d + 1, ih =>
          have hMk : M k = some (⟨t.export.args, t.export.results⟩, .host (H "WASTRUMENTATION_ANALYSIS" t.export.name)) := by
            rw [← hmk]
            simp only [M, machineOf]
            rw [List.getElem?_append_right hge, List.getElem?_drop, Nat.add_sub_cancel' hge]
          have hh := hH t (by rw [he]; rfl)
          have hname : t.export.name = (stdSig t).1 := by rw [C49_library_exports_what_is_imported]; rfl
          rw [hname, hh] at hMk
          show toldCallF N M bodies _ body L (d + 1) k args s = _
          simp only [toldCallF, hMk, stdHook, ha, C49_library_exports_what_is_imported, hadv]
          rfl
  exact fun f args s => congrFun (congrFun (congrFun (main d) f) args) s

/-! ## C57 at work -/

/-- Advice that does not forward: every multiplication (any binary operation on `i32`) yields the sum of the operands, plus the index of the
instruction (returned by the accessor for the function: C22). -/
def exMeddling : Advice → (Nat → List RVal → Store (List RVal) → Res (List RVal)) → Store (List RVal) → Res (List RVal)
  | .binary _ (.i32 x) (.i32 y) l, _, s => .ok [.i32 (x + y + l.functionIndex.setWidth 32)] s
  | .ifThenElse k _ _ _, _, s => .ok [.i32 k] s
  | _, _, s => .ok [] s

/-- The meddling advice linked with the example program. -/
def exMeddlingImports : Imports (List RVal) := fun ns name call args s =>
  if ns = "WASTRUMENTATION_ANALYSIS" then
    match [Trap.ifThenElseTrap, .preTrapCall, .postTrapCall, .binaryI32I32ToI32].find? fun t => t.exportName == name with
    | some t => stdHook exMeddling t call args s
    | none => .stuck
  else exImports ns name call args s

theorem exMeddling_linked : LinkedTo exIface exMeddling exMeddlingImports := by
  intro t h
  rw [C49_library_exports_what_is_imported]
  have : t = .ifThenElseTrap ∨ t = .preTrapCall ∨ t = .postTrapCall ∨ t = .binaryI32I32ToI32 := by
    simp only [exIface] at h
    split at h
    · assumption
    · cases h
  funext call args s
  simp only [exMeddlingImports, if_true]
  have e : List.find? (fun u => u.exportName == t.exportName) [Trap.ifThenElseTrap, .preTrapCall, .postTrapCall, .binaryI32I32ToI32] = some t := by
    rcases this with rfl | rfl | rfl | rfl <;> decide +kernel
  show (match List.find? (fun u => u.exportName == t.exportName) [Trap.ifThenElseTrap, .preTrapCall, .postTrapCall, .binaryI32I32ToI32] with
    | some t => stdHook exMeddling t call args s | none => .stuck) = _
  rw [e]

-- C57: `main(0, 5)` multiplies 7 by 7 at instruction 4 of function 2, where the advice makes 7 + 7 + 4 of it.
example : ∃ r, Instruments exTypedChecker exIface none exModule r ∧
    callF exNum (machineOf exMeddlingImports r.module.functions) 10 10 1 [.i32 0, .i32 5] exStore = .ok [.i32 18] { exStore with world := [.i32 7] } := by
  obtain ⟨r, hr⟩ := instruments_of_ok (C := exTypedChecker) (iface := exIface) (ts := none) (m := exModule) (by decide) exModule_small exModule_raises_typed
  refine ⟨r, hr, ?_⟩
  rw [C57_advice_is_told_the_instruction exModule_small exIface_documented.standard rfl exIface_documented hr exMeddling_linked]
  generalize r.module.functions.drop exModule.functions.length = X
  cbv

end Wastrum
