/-
The three stack libraries are interchangeable (C52).
-/
import Verif.FaceAs

set_option linter.unusedVariables false
set_option linter.unusedSimpArgs false

namespace Wastrum

/-! ## C52: three libraries, one behaviour -/

/-- C52, WebAssembly text: from a fresh library, every allowed history of buffer operations shows exactly what the specification says, or traps
because memory ran out. -/
theorem C52_wat_history {N : Num} (hN : StackNum N) {sigs : List FuncType} (hs : SmallSigs sigs) (hr : ∀ t ∈ sigs, t.RefFree) {L d limit : Nat} (hL : 65537 ≤ L)
    (h1 : 1 ≤ limit) (h2 : limit ≤ 65536) {ops : List BufOp} {as : List AbsBuf} {obs : List Val} (h : specRun sigs ops [] = some (as, obs)) :
    let F := watFace N sigs L (d + 5)
    execRun F ops [] (libStart limit) = .seen obs ∨ execRun F ops [] (libStart limit) = .trap ∧ RunsOut F watFull ops [] (libStart limit) :=
  (wat_lawful hN hL hs hr).run_traps (wat_traps hN hL hs hr) h (wat_start h1 h2) ⟨rfl, fun n a b ha => by simp at ha⟩

/-- C52, AssemblyScript. -/
theorem C52_assemblyscript_history {sigs : List FuncType} (hs : SmallSigs sigs) {pages limit : Nat} (h1 : 1 ≤ pages) (h2 : pages ≤ limit) (h3 : limit ≤ 65536)
    {ops : List BufOp} {as : List AbsBuf} {obs : List Val} (h : specRun sigs ops [] = some (as, obs)) :
    execRun (asFace sigs) ops [] (asStart pages limit) = .seen obs ∨
      execRun (asFace sigs) ops [] (asStart pages limit) = .trap ∧ RunsOut (asFace sigs) asFull ops [] (asStart pages limit) :=
  (as_lawful hs).run_traps (as_traps hs) h (as_start h1 h2 h3) ⟨rfl, fun n a b ha => by simp at ha⟩

/-- C52, Rust: with any allocator that keeps its contract and in any state in which it has handed out nothing, every allowed history shows exactly what
the specification says, or asks for memory when the allocator has none (and what happens then is C54). -/
theorem C52_rust_history {α : Type} {A : Allocator α} {I : List Block → α → Mem → Prop} (hA : AllocatorOk A I) (junk : Mem → Nat → Nat) {sigs : List FuncType}
    (hs : SmallSigs sigs) (hz : A.zero = true ∨ ∀ t ∈ sigs, t.slots ≠ 0) {s : RState α} (hi : I [] s.heap s.mem)
    {ops : List BufOp} {as : List AbsBuf} {obs : List Val} (h : specRun sigs ops [] = some (as, obs)) :
    execRun (rustFace A junk sigs) ops [] s = .seen obs ∨ RunsOut (rustFace A junk sigs) (rustFull A) ops [] s :=
  (rust_lawful hA hs hz).run h ⟨hi, fun b hb => by simp at hb⟩ ⟨rfl, fun n a b ha => by simp at ha⟩

/-- C52: no user of call buffers can tell which of the three libraries is linked, as long as memory lasts. -/
theorem C52_interchangeable {N : Num} (hN : StackNum N) {α : Type} {A : Allocator α} {I : List Block → α → Mem → Prop} (hA : AllocatorOk A I) (junk : Mem → Nat → Nat)
    {sigs : List FuncType} (hs : SmallSigs sigs) (hr : ∀ t ∈ sigs, t.RefFree) (hz : A.zero = true ∨ ∀ t ∈ sigs, t.slots ≠ 0) {L d limit pages limit' : Nat}
    (hL : 65537 ≤ L) (h1 : 1 ≤ limit) (h2 : limit ≤ 65536) (h3 : 1 ≤ pages) (h4 : pages ≤ limit') (h5 : limit' ≤ 65536) {s : RState α} (hi : I [] s.heap s.mem)
    {ops : List BufOp} {as : List AbsBuf} {obs : List Val} (h : specRun sigs ops [] = some (as, obs))
    (m1 : ¬ RunsOut (watFace N sigs L (d + 5)) watFull ops [] (libStart limit)) (m2 : ¬ RunsOut (asFace sigs) asFull ops [] (asStart pages limit'))
    (m3 : ¬ RunsOut (rustFace A junk sigs) (rustFull A) ops [] s) :
    execRun (watFace N sigs L (d + 5)) ops [] (libStart limit) = .seen obs ∧ execRun (asFace sigs) ops [] (asStart pages limit') = .seen obs ∧
      execRun (rustFace A junk sigs) ops [] s = .seen obs :=
  ⟨(C52_wat_history hN hs hr hL h1 h2 h).resolve_right fun x => m1 x.2, (C52_assemblyscript_history hs h3 h4 h5 h).resolve_right fun x => m2 x.2,
    (C52_rust_history hA junk hs hz hi h).resolve_right m3⟩

/-! ## How much memory is enough -/

/-- Bytes of a live buffer: eight for each slot of values, four for each type. -/
def AbsBuf.bytes (b : AbsBuf) : Nat := b.sig.slots * if b.types then 4 else 8

/-- Live buffers never have more than `cap` bytes in total during a history. -/
def within (sigs : List FuncType) (cap : Nat) : List BufOp → List AbsBuf → Prop
  | [], _ => True
  | op :: ops, bs => match op.spec sigs bs with
    | none => True
    | some (bs', _) => (bs'.map AbsBuf.bytes).sum ≤ cap ∧ within sigs cap ops bs'

instance within.dec (sigs : List FuncType) (cap : Nat) : ∀ ops bs, Decidable (within sigs cap ops bs)
  | [], _ => .isTrue trivial
  | op :: ops, bs => by
    unfold within
    cases op.spec sigs bs with
    | none => exact .isTrue trivial
    | some x => exact @instDecidableAnd _ _ _ (within.dec sigs cap ops x.1)

theorem agree_bytes {m : Mem} {as : List AbsBuf} {bs : List Buffer} (h : AgreeAll m as bs) : as.map AbsBuf.bytes = bs.map Buffer.size := by
  apply List.ext_getElem?
  intro n
  rw [List.getElem?_map, List.getElem?_map]
  cases ha : as[n]? with
  | none =>
    have : bs[n]? = none := by rw [List.getElem?_eq_none_iff] at ha ⊢; rw [← h.1]; exact ha
    rw [this]; rfl
  | some a =>
    obtain ⟨p, hb, _⟩ := h.at ha
    rw [hb]; rfl

/-- A history whose buffers fit in what a library can provide never runs out. -/
theorem Lawful.run_within {σ : Type} {sigs : List FuncType} {F : Face σ} {mem : σ → Mem} {full : Nat → Nat → σ → Prop} {Inv : List Buffer → σ → Prop}
    (law : Lawful sigs F mem full Inv) {cap : Nat} (hcap : ∀ {bs s n a}, Inv bs s → full n a s → cap < (bs.map Buffer.size).sum + n) :
    ∀ {ops : List BufOp} {as as' : List AbsBuf} {obs : List Val} {bs : List Buffer} {s : σ},
    specRun sigs ops as = some (as', obs) → within sigs cap ops as → Inv bs s → AgreeAll (mem s) as bs → execRun F ops bs s = .seen obs := by
  intro ops
  induction ops with
  | nil => intro as as' obs bs s h _ _ _; cases h; rfl
  | cons op ops ih =>
    intro as as' obs bs s h hw hi ha
    simp only [specRun] at h
    cases h1 : op.spec sigs as with
    | none => rw [h1] at h; cases h
    | some x =>
      obtain ⟨as1, vs⟩ := x
      rw [h1] at h; dsimp only at h
      rw [within, h1] at hw; dsimp only at hw
      cases h2 : specRun sigs ops as1 with
      | none => rw [h2] at h; cases h
      | some y =>
        obtain ⟨as2, ws⟩ := y
        rw [h2] at h; cases h
        rcases law.step h1 hi ha with ⟨n, a, hn, hf⟩ | ⟨bs', s', e, hi', ha'⟩
        · exfalso
          have hc := hcap hi hf
          have hsum : (as1.map AbsBuf.bytes).sum = (bs.map Buffer.size).sum + n := by
            rw [← agree_bytes ha]
            cases op <;> simp only [BufOp.needs, Option.some.injEq, Prod.mk.injEq, reduceCtorEq] at hn
            · simp only [BufOp.spec] at h1
              split at h1
              · cases h1
                simp only [List.map_cons, List.sum_cons, AbsBuf.bytes, Bool.false_eq_true, if_false]; omega
              · cases h1
            · simp only [BufOp.spec] at h1
              split at h1
              · cases h1
                simp only [List.map_cons, List.sum_cons, AbsBuf.bytes, if_true]; omega
              · cases h1
          have := hw.1
          omega
        · simp only [execRun, e, ih h2 hw.2 hi' ha']

/-- C52: if the buffers live at one time never have more bytes than the memory can grow to, the library in WebAssembly text shows what the specification says. -/
theorem C52_wat_enough {N : Num} (hN : StackNum N) {sigs : List FuncType} (hs : SmallSigs sigs) (hr : ∀ t ∈ sigs, t.RefFree) {L d limit : Nat} (hL : 65537 ≤ L)
    (h1 : 1 ≤ limit) (h2 : limit < 65536) {ops : List BufOp} {as : List AbsBuf} {obs : List Val} (h : specRun sigs ops [] = some (as, obs))
    (hw : within sigs (limit * 65536) ops []) : execRun (watFace N sigs L (d + 5)) ops [] (libStart limit) = .seen obs := by
  refine (wat_lawful hN hL hs hr).run_within (cap := limit * 65536) ?_ h hw (wat_start h1 (by omega)) ⟨rfl, fun n a b ha => by simp at ha⟩
  rintro bs s n a ⟨l, rfl, ok, hlim, st⟩ ⟨h0, hf⟩
  rw [st.sum]
  rw [ok.used] at hf
  change l.mem.limit * 65536 < _ ∨ _ ∨ l.mem.pages = 65536 at hf
  have h3 := ok.pages
  rw [hlim] at hf h3
  rcases hf with hf | hf | hf
  · exact hf
  · exact Nat.lt_of_le_of_lt (Nat.mul_le_mul_right _ (by omega)) hf
  · omega

/-- C52: likewise for the library in AssemblyScript, which does not use the pages its memory has at first. -/
theorem C52_assemblyscript_enough {sigs : List FuncType} (hs : SmallSigs sigs) {pages limit : Nat} (h1 : 1 ≤ pages) (h2 : pages ≤ limit) (h3 : limit ≤ 65536)
    {ops : List BufOp} {as : List AbsBuf} {obs : List Val} (h : specRun sigs ops [] = some (as, obs)) (hw : within sigs ((limit - pages) * 65536) ops []) :
    execRun (asFace sigs) ops [] (asStart pages limit) = .seen obs := by
  refine (as_lawful hs).run_within (cap := (limit - pages) * 65536) ?_ h hw (as_start h1 h2 h3) ⟨rfl, fun n a b ha => by simp at ha⟩
  rintro bs s n a ⟨ok, st⟩ hf
  rw [st.sum]
  refine Nat.lt_of_le_of_lt (Nat.mul_le_mul_right _ ?_) hf
  have h4 := ok.total; have h5 := ok.pages; have h6 := ok.lim.1
  omega

/-! ## Example: two calls, one inside the other -/

/-- Signatures of the example. -/
def faceSigs : List FuncType := [⟨[.i32, .f64], [.i64]⟩, ⟨[], []⟩, ⟨[.i64], [.i32, .i32]⟩]

/-- An outer call whose argument is edited, an inner call, results, and everything read back. -/
def faceOps : List BufOp :=
  [.allocateValues ⟨[.i32, .f64], [.i64]⟩ [.i32 7, .f64 9], .allocateTypes ⟨[.i32, .f64], [.i64]⟩, .peek 1 1 .i32, .loadType 0 2, .poke 1 1 (.i32 8),
    .allocateValues ⟨[.i64], [.i32, .i32]⟩ [.i64 5], .allocateTypes ⟨[.i64], [.i32, .i32]⟩, .storeRets 1 [.i32 1, .i32 2], .peek 1 1 .i32, .load 1 .arg 0, .freeCall,
    .store 1 .ret 0 (.i64 3), .load 1 .arg 0, .load 1 .ret 0, .freeCall]

/-- What is seen. -/
def faceSeen : List Val := [.i32 7, .i32 3, .i32 2, .i64 5, .i32 8, .i64 3]

example : (specRun faceSigs faceOps []).map Prod.snd = some faceSeen := by decide +kernel

theorem faceSpec : ∃ as, specRun faceSigs faceOps [] = some (as, faceSeen) := by
  cases h : specRun faceSigs faceOps [] with
  | none => have : (specRun faceSigs faceOps []).map Prod.snd = some faceSeen := by decide +kernel
            rw [h] at this; cases this
  | some x =>
    have : (specRun faceSigs faceOps []).map Prod.snd = some faceSeen := by decide +kernel
    rw [h] at this
    obtain ⟨as, obs⟩ := x
    simp only [Option.map_some, Option.some.injEq] at this
    subst this; exact ⟨as, rfl⟩

theorem faceSmall : SmallSigs faceSigs := by
  intro t ht
  simp only [faceSigs, List.mem_cons, List.not_mem_nil, or_false] at ht
  rcases ht with rfl | rfl | rfl <;> decide

/-- The example runs on the library in AssemblyScript with two pages. -/
example : execRun (asFace faceSigs) faceOps [] (asStart 1 2) = .seen faceSeen :=
  faceSpec.elim fun _ h => C52_assemblyscript_enough faceSmall (by decide) (by decide) (by decide) h (by decide +kernel)

/-- With only the page it starts with, it traps: the library does not count that page. -/
example : execRun (asFace faceSigs) faceOps [] (asStart 1 1) = .trap := by decide +kernel

/-- The library in WebAssembly text needs one page. -/
example (L d : Nat) (hL : 65537 ≤ L) : execRun (watFace libNum faceSigs L (d + 5)) faceOps [] (libStart 1) = .seen faceSeen :=
  faceSpec.elim fun _ h => C52_wat_enough libNum_stack faceSmall
    (by intro t ht; simp only [faceSigs, List.mem_cons, List.not_mem_nil, or_false] at ht; rcases ht with rfl | rfl | rfl <;> simp [FuncType.RefFree]) hL (by decide) (by decide) h (by decide +kernel)

/-- The library in Rust, with an allocator and bytes of its own choosing for what is not initialised. -/
example : execRun (rustFace bumpAllocator (fun _ _ => 99) faceSigs) faceOps [] ⟨8, ⟨1, 1, fun _ => 0⟩⟩ = .seen faceSeen := by decide +kernel

example : (BumpInv [] 8 ⟨1, 1, fun _ => 0⟩) := by simp [BumpInv, Mem.size]

end Wastrum
