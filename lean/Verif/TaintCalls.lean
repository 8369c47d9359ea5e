import Verif.TaintMemory

/-!
# What `taint` forgets at calls, blocks and conditionals (C78)
-/

namespace Wastrum

/-- What the analysis is told of a direct call of function `f`: the expressions for the arguments, the call, the function entered with `xs`, its body, the function left with `ys`, the call completed. -/
def callTales (args : List TaintExpr) (f : Nat) (xs ys : List Val) (body : TaintExpr) (l : Location) : List Tale :=
  (args.flatMap TaintExpr.events).map .adv ++ [.adv (.callPre (BitVec.ofNat 32 f) l), .enter f xs] ++ body.events.map .adv ++ [.leave f xs ys, .adv (.callPost (BitVec.ofNat 32 f) l)]

theorem taint_hear_run (cap : Nat) (as : List Advice) (s : TaintState) : (taint cap).hear (as.map .adv) s = (taint cap).run as s := by
  induction as generalizing s with
  | nil => rfl
  | cons a as ih =>
    show ((taint cap).step a s).bind _ = ((taint cap).step a s).bind _
    cases (taint cap).step a s with
    | none => rfl
    | some x => exact ih x

theorem taint_args_run (cap : Nat) (args : List TaintExpr) (h : ∀ e ∈ args, e.Small) (vs : List Bool) (blocks : List (List Bool)) (locals : List (Option Bool)) (frames : List TaintFrame)
    (memory globals : List Bool) (returned : Option Bool) :
    ∃ ts : List Bool, ts.length = args.length ∧ (taint cap).run (args.flatMap TaintExpr.events) ⟨⟨vs :: blocks, locals⟩ :: frames, memory, globals, returned⟩ =
      some ⟨⟨(ts ++ vs) :: blocks, locals⟩ :: frames, memory, globals, returned⟩ := by
  induction args generalizing vs with
  | nil => exact ⟨[], rfl, rfl⟩
  | cons e args ih =>
    obtain ⟨t, h1, _⟩ := C78_expressions_carry_marks cap e (h e (.head _)) vs blocks locals frames memory globals returned
    obtain ⟨ts, h2, h3⟩ := ih (fun e he => h e (.tail _ he)) (t :: vs)
    refine ⟨ts ++ [t], by simp [h2], ?_⟩
    rw [List.flatMap_cons, Watcher.run_append, h1, Option.bind_some, h3]
    simp

theorem taintArgs_pops (xs : List Val) (ts vs : List Bool) (h : ts.length = xs.length) (blocks : List (List Bool)) (locals : List (Option Bool)) (frames : List TaintFrame) (memory globals : List Bool)
    (returned : Option Bool) :
    taintArgs xs ⟨⟨(ts ++ vs) :: blocks, locals⟩ :: frames, memory, globals, returned⟩ = (List.replicate xs.length (some false), ⟨⟨vs :: blocks, locals⟩ :: frames, memory, globals, returned⟩) := by
  induction xs generalizing ts with
  | nil => rw [List.length_eq_zero_iff.1 h]; rfl
  | cons x xs ih =>
    cases ts with
    | nil => simp at h
    | cons t ts => simp [taintArgs, TaintState.pop, ih ts (by simpa using h), List.replicate_succ]

/-- **C78 (marks do not enter functions).** From any state with a block on its stack, after the expressions for the arguments of a call and entering the function, there is a frame more on the stack: it has an
empty block and a variable for each argument, and none of them is marked, even if the argument depends on marked variables. The arguments have been taken from the caller's block. -/
theorem C78_arguments_lose_marks (cap : Nat) (args : List TaintExpr) (h : ∀ e ∈ args, e.Small) (f : Nat) (xs : List Val) (hx : xs.length = args.length) (l : Location)
    (vs : List Bool) (blocks : List (List Bool)) (locals : List (Option Bool)) (frames : List TaintFrame) (memory globals : List Bool) (returned : Option Bool) :
    (taint cap).hear ((args.flatMap TaintExpr.events).map .adv ++ [.adv (.callPre (BitVec.ofNat 32 f) l), .enter f xs]) ⟨⟨vs :: blocks, locals⟩ :: frames, memory, globals, returned⟩ =
      some ⟨⟨[[]], List.replicate args.length (some false)⟩ :: ⟨vs :: blocks, locals⟩ :: frames, memory, globals, returned⟩ := by
  obtain ⟨ts, h1, h2⟩ := taint_args_run cap args h vs blocks locals frames memory globals returned
  rw [CallWatcher.hear_append, taint_hear_run, h2, Option.bind_some]
  show some (TaintState.enter xs _) = _
  rw [TaintState.enter, taintArgs_pops xs ts vs (by omega), hx]

/-- **C78 (a call costs the caller its block).** From any state with a block on its stack, what is told of a direct call of a function whose body is an expression leaves the caller without the block the call is
in: the values in it are gone, and there is none for the result; the marks of variables, memory and globals are as before. The last value of the block (or what was kept as returned value before) is kept as
returned value. -/
theorem C78_calls_lose_marks (cap : Nat) (args : List TaintExpr) (h : ∀ e ∈ args, e.Small) (f : Nat) (xs ys : List Val) (hx : xs.length = args.length) (body : TaintExpr) (hb : body.Small) (l : Location)
    (vs : List Bool) (blocks : List (List Bool)) (locals : List (Option Bool)) (frames : List TaintFrame) (memory globals : List Bool) (returned : Option Bool) :
    (taint cap).hear (callTales args f xs ys body l) ⟨⟨vs :: blocks, locals⟩ :: frames, memory, globals, returned⟩ =
      some ⟨⟨blocks, locals⟩ :: frames, memory, globals, returned.or vs.head?⟩ := by
  obtain ⟨t, h1, _⟩ := C78_expressions_carry_marks cap body hb [] [] (List.replicate args.length (some false)) (⟨vs :: blocks, locals⟩ :: frames) memory globals returned
  rw [callTales, CallWatcher.hear_append, CallWatcher.hear_append, C78_arguments_lose_marks cap args h f xs hx, Option.bind_some, taint_hear_run, h1, Option.bind_some]
  cases returned with
  | none => cases vs <;> rfl
  | some r => rfl

-- C78 (calls): `x + f(y)` with both variables marked: before the operation the block with the value of `x` is gone, and `f` was entered with its variable not marked.
example : (taint 100).hear ((TaintExpr.var 0 (.i32 3) (.new 4 0)).events.map .adv ++ callTales [.var 1 (.i32 5) (.new 4 1)] 7 [.i32 5] [.i32 5] (.var 0 (.i32 5) (.new 7 0)) (.new 4 2))
      ⟨[⟨[[]], [some true, some true]⟩], [], [], none⟩ = some ⟨[⟨[], [some true, some true]⟩], [], [], some true⟩ ∧
    (taint 100).hear (((TaintExpr.var 1 (.i32 5) (.new 4 1)).events).map .adv ++ [.adv (.callPre 7 (.new 4 2)), .enter 7 [.i32 5]]) ⟨[⟨[[true]], [some true, some true]⟩], [], [], none⟩ =
      some ⟨[⟨[[]], [some false]⟩, ⟨[[true]], [some true, some true]⟩], [], [], none⟩ := by
  constructor
  · rw [CallWatcher.hear_append]
    exact C78_calls_lose_marks 100 [.var 1 (.i32 5) (.new 4 1)] (by simp [TaintExpr.Small]) 7 [.i32 5] [.i32 5] rfl (.var 0 (.i32 5) (.new 7 0)) (by simp [TaintExpr.Small]) (.new 4 2) [true] [] [some true, some true] []
      [] [] none
  · exact C78_arguments_lose_marks 100 [.var 1 (.i32 5) (.new 4 1)] (by simp [TaintExpr.Small]) 7 [.i32 5] rfl (.new 4 2) [true] [] [some true, some true] [] [] [] none

/-- **C78 (the value of a block is lost).** From any state with a block on its stack, what is told of a block or loop that is run once and whose body is an expression leaves the state exactly as it was: there is no
value for the one the block leaves on the operand stack, marked or not. -/
theorem C78_blocks_lose_marks (cap : Nat) (e : TaintExpr) (h : e.Small) (inputs arity : BitVec 32) (l l' : Location)
    (vs : List Bool) (blocks : List (List Bool)) (locals : List (Option Bool)) (frames : List TaintFrame) (memory globals : List Bool) (returned : Option Bool) :
    let s : TaintState := ⟨⟨vs :: blocks, locals⟩ :: frames, memory, globals, returned⟩
    (taint cap).run ([.blockPre inputs arity l] ++ e.events ++ [.blockPost l']) s = some s ∧ (taint cap).run ([.loopPre inputs arity l] ++ e.events ++ [.loopPost l']) s = some s := by
  obtain ⟨t, h1, _⟩ := C78_expressions_carry_marks cap e h [] (vs :: blocks) locals frames memory globals returned
  constructor <;>
  · rw [Watcher.run_append, Watcher.run_append, taint_run_one]
    simp only [taintAdvice, TaintState.begin, Option.bind_some, h1, taint_run_one, TaintState.endBlock, TaintState.popBlock, Bool.false_eq_true, if_false]

/-- **C78 (a conditional costs the block it is in).** From any state with a block on its stack, what is told of a conditional whose branches are expressions (`c` is the condition, `e` the branch that is run; without `else`, its value is
dropped) leaves the frame without the block the conditional is in: the values in it are gone, and there is none for the result. -/
theorem C78_conditionals_lose_marks (cap : Nat) (c e : TaintExpr) (hc : c.Small) (h : e.Small) (k inputs arity : BitVec 32) (l l' l'' : Location)
    (vs : List Bool) (blocks : List (List Bool)) (locals : List (Option Bool)) (frames : List TaintFrame) (memory globals : List Bool) (returned : Option Bool) :
    let s : TaintState := ⟨⟨vs :: blocks, locals⟩ :: frames, memory, globals, returned⟩
    let s' : TaintState := ⟨⟨blocks, locals⟩ :: frames, memory, globals, returned⟩
    (taint cap).run (c.events ++ [.ifThenElse k inputs arity l] ++ e.events ++ [.ifThenElsePost l']) s = some s' ∧
    (taint cap).run (c.events ++ [.ifThen k inputs arity l] ++ (e.events ++ [.drop l'']) ++ [.ifThenPost l']) s = some s' := by
  obtain ⟨t, h1, _⟩ := C78_expressions_carry_marks cap c hc vs blocks locals frames memory globals returned
  obtain ⟨t', h2, _⟩ := C78_expressions_carry_marks cap e h vs blocks locals frames memory globals returned
  constructor <;>
  · rw [Watcher.run_append, Watcher.run_append, Watcher.run_append, h1, Option.bind_some, taint_run_one]
    simp only [taintAdvice, TaintState.pop, Option.bind_some, Watcher.run_append, h2, taint_run_one, TaintState.endBlock, TaintState.popBlock, Bool.false_eq_true, if_false]
    try cases vs <;> rfl

-- C78 (blocks, conditionals): a block that yields the marked variable 0, and a conditional on variable 1 that does.
example : (taint 100).run ([.blockPre 0 1 (.new 4 0)] ++ (TaintExpr.var 0 (.i32 3) (.new 4 1)).events ++ [.blockPost (.new 4 2)]) ⟨[⟨[[false]], [some true]⟩], [], [], none⟩ =
      some ⟨[⟨[[false]], [some true]⟩], [], [], none⟩ ∧
    (taint 100).run ((TaintExpr.var 1 (.i32 1) (.new 4 0)).events ++ [.ifThenElse 1 0 1 (.new 4 1)] ++ (TaintExpr.var 0 (.i32 3) (.new 4 2)).events ++ [.ifThenElsePost (.new 4 3)])
      ⟨[⟨[[false]], [some true]⟩], [], [], none⟩ = some ⟨[⟨[], [some true]⟩], [], [], none⟩ :=
  ⟨(C78_blocks_lose_marks 100 (.var 0 (.i32 3) (.new 4 1)) (by simp [TaintExpr.Small]) 0 1 (.new 4 0) (.new 4 2) [false] [] [some true] [] [] [] none).1,
    (C78_conditionals_lose_marks 100 (.var 1 (.i32 1) (.new 4 0)) (.var 0 (.i32 3) (.new 4 2)) (by simp [TaintExpr.Small]) (by simp [TaintExpr.Small]) 1 0 1 (.new 4 1) (.new 4 3) (.new 4 3) [false] [] [some true] [] [] []
      none).1⟩

end Wastrum
