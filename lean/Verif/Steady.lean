/-
Supporting lemmas for C55: more call depth does not change the outcome of a call that ends, and what a program does "in the limit".
-/
import Verif.Resume

set_option linter.unusedSimpArgs false
set_option linter.unusedVariables false

namespace Wastrum

variable {W : Type}

/-- From some number on. -/
def Eventually (P : Nat → Prop) : Prop := ∃ d0, ∀ d, d0 ≤ d → P d

theorem Eventually.of {P : Nat → Prop} (h : ∀ d, P d) : Eventually P := ⟨0, fun d _ => h d⟩
theorem Eventually.mono {P Q : Nat → Prop} (h : Eventually P) (hPQ : ∀ d, P d → Q d) : Eventually Q := by
  obtain ⟨d0, h⟩ := h
  exact ⟨d0, fun d hd => hPQ d (h d hd)⟩
theorem Eventually.and {P Q : Nat → Prop} (hP : Eventually P) (hQ : Eventually Q) : Eventually fun d => P d ∧ Q d := by
  obtain ⟨a, ha⟩ := hP
  obtain ⟨b, hb⟩ := hQ
  exact ⟨max a b, fun d hd => ⟨ha d (by omega), hb d (by omega)⟩⟩
theorem Eventually.const {p : Prop} (h : Eventually fun _ => p) : p := by
  obtain ⟨d0, h⟩ := h
  exact h d0 (Nat.le_refl _)

/-- How calls go. -/
abbrev CallFn (W : Type) := Nat → List RVal → Store W → Res W

/-- Calls with bounds end up as in the limit: what ends in the limit ends the same way with all large enough bounds. -/
def Settles (calls : Nat → CallFn W) (lim : CallFn W) : Prop := ∀ f args s, lim f args s ≠ .fuel → Eventually fun d => calls d f args s = lim f args s

/-- An imported function whose outcome rests on finitely many calls back: what ends in the limit ends the same way with all large enough
bounds. Functions that do not call back are steady. -/
def Steady (h : Host W) : Prop := ∀ (calls : Nat → CallFn W) (lim : CallFn W), Settles calls lim → ∀ args s, h lim args s ≠ .fuel → Eventually fun d => h (calls d) args s = h lim args s

theorem Steady.plain {h : Host W} (hp : ∀ call call', h call = h call') : Steady h := fun calls lim _ args s _ => .of fun d => by rw [hp (calls d) lim]

/-- Code that settles. -/
def CodeSettles (f : Nat → Cfg W → Out W) (g : Cfg W → Out W) : Prop := ∀ c, g c ≠ .fuel → Eventually fun d => f d c = g c

theorem CodeSettles.const (g : Cfg W → Out W) : CodeSettles (fun _ => g) g := fun c _ => .of fun _ => rfl

theorem CodeSettles.bind {f : Nat → Cfg W → Out W} {g : Cfg W → Out W} {k : Nat → Cfg W → Out W} {k' : Cfg W → Out W} (hf : CodeSettles f g) (hk : CodeSettles k k') :
    CodeSettles (fun d c => (f d c).bind (k d)) (fun c => (g c).bind k') := by
  intro c hc
  have h1 := hf c
  cases hg : g c with
  | norm c1 =>
    rw [hg] at h1
    simp only [hg, Out.bind] at hc ⊢
    refine ((h1 (by simp)).and (hk c1 hc)).mono ?_
    rintro d ⟨e1, e2⟩
    rw [e1]; exact e2
  | fuel => simp [hg, Out.bind] at hc
  | br l c1 => rw [hg] at h1; exact (h1 (by simp)).mono fun d e => by simp only [e, hg, Out.bind]
  | ret c1 => rw [hg] at h1; exact (h1 (by simp)).mono fun d e => by simp only [e, hg, Out.bind]
  | trap c1 => rw [hg] at h1; exact (h1 (by simp)).mono fun d e => by simp only [e, hg, Out.bind]
  | stuck => rw [hg] at h1; exact (h1 (by simp)).mono fun d e => by simp only [e, hg, Out.bind]

theorem CodeSettles.inBlock {f : Nat → Cfg W → Out W} {g : Cfg W → Out W} (hf : CodeSettles f g) (t : FuncType) :
    CodeSettles (fun d => Wastrum.inBlock t (f d)) (Wastrum.inBlock t g) := by
  intro c hc
  unfold Wastrum.inBlock at hc ⊢
  split at hc
  · rename_i hle
    simp only [if_pos hle]
    dsimp only at hc
    refine (hf _ ?_).mono fun d e => by rw [e]
    intro e
    rw [e] at hc
    simp at hc
  · rename_i hle
    exact .of fun _ => by simp only [if_neg hle]

theorem CodeSettles.iterate {f : Nat → Cfg W → Out W} {g : Cfg W → Out W} (hf : CodeSettles f g) (t : FuncType) (n : Nat) :
    CodeSettles (fun d => Wastrum.iterate t (f d) n) (Wastrum.iterate t g n) := by
  induction n with
  | zero => intro c hc; exact absurd rfl hc
  | succ n ih =>
    intro c hc
    have h1 := hf c
    simp only [Wastrum.iterate] at hc ⊢
    cases hg : g c with
    | br l c1 =>
      rw [hg] at h1 hc
      have h1 := h1 (by simp)
      cases l with
      | zero =>
        dsimp only at hc
        split at hc
        · rename_i hle
          refine (h1.and (ih _ hc)).mono ?_
          rintro d ⟨e1, e2⟩
          rw [e1]
          simp only [if_pos hle]
          exact e2
        · rename_i hle; exact h1.mono fun d e => by simp only [e, hle, if_false]
      | succ l => exact h1.mono fun d e => by rw [e]
    | fuel => simp [hg] at hc
    | norm c1 => rw [hg] at h1; exact (h1 (by simp)).mono fun d e => by simp only [e, hg]
    | ret c1 => rw [hg] at h1; exact (h1 (by simp)).mono fun d e => by simp only [e, hg]
    | trap c1 => rw [hg] at h1; exact (h1 (by simp)).mono fun d e => by simp only [e, hg]
    | stuck => rw [hg] at h1; exact (h1 (by simp)).mono fun d e => by simp only [e, hg]

theorem CodeSettles.inLoop {f : Nat → Cfg W → Out W} {g : Cfg W → Out W} (hf : CodeSettles f g) (t : FuncType) (L : Nat) :
    CodeSettles (fun d => Wastrum.inLoop t (f d) L) (Wastrum.inLoop t g L) := by
  intro c hc
  unfold Wastrum.inLoop at hc ⊢
  split at hc
  · rename_i hle
    simp only [if_pos hle]
    dsimp only at hc
    refine (hf.iterate t L _ ?_).mono fun d e => by dsimp only at e; rw [e]
    intro e
    rw [e] at hc
    simp at hc
  · rename_i hle
    exact .of fun _ => by simp only [if_neg hle]

theorem CodeSettles.branchOn {f1 f2 : Nat → Cfg W → Out W} {g1 g2 : Cfg W → Out W} (h1 : CodeSettles f1 g1) (h2 : CodeSettles f2 g2) :
    CodeSettles (fun d => Wastrum.branchOn (f1 d) (f2 d)) (Wastrum.branchOn g1 g2) := by
  rintro ⟨st, lo, s⟩ hc
  unfold Wastrum.branchOn at hc ⊢
  cases st with
  | nil => exact .of fun _ => rfl
  | cons v st =>
    cases v with
    | ref r a => exact .of fun _ => rfl
    | num v =>
      cases v with
      | i32 x =>
        dsimp only at hc ⊢
        by_cases hx : x = 0
        · simp only [if_pos hx] at hc ⊢
          exact h2 _ hc
        · simp only [if_neg hx] at hc ⊢
          exact h1 _ hc
      | _ => exact .of fun _ => rfl

section
variable {N : Num} {L : Nat} {ftype : Nat → Option FuncType} {calls : Nat → CallFn W} {lim : CallFn W}

theorem doCall_settles (h : Settles calls lim) (f : Nat) (ty : FuncType) : CodeSettles (fun d => doCall ⟨N, ftype, calls d, L⟩ f ty) (doCall ⟨N, ftype, lim, L⟩ f ty) := by
  intro c hc
  unfold doCall at hc ⊢
  dsimp only at hc ⊢
  split at hc
  · rename_i hty
    simp only [if_pos hty]
    refine (h f _ _ ?_).mono fun d e => by rw [e]
    intro e
    rw [e] at hc
    simp at hc
  · rename_i hty
    exact .of fun _ => by simp only [if_neg hty]

theorem step_settles (h : Settles calls lim) (b : Basic) : CodeSettles (fun d => step ⟨N, ftype, calls d, L⟩ b) (step ⟨N, ftype, lim, L⟩ b) := by
  cases b
  case call f =>
    intro c hc
    simp only [step] at hc ⊢
    cases ht : ftype f with
    | none => exact .of fun _ => rfl
    | some ty =>
      rw [ht] at hc
      exact doCall_settles h f ty c hc
  case callIndirect ty tbl =>
    intro c hc
    simp only [step] at hc ⊢
    split at hc
    · split at hc
      · split at hc
        · rename_i f hf
          split at hc
          · rename_i hty
            simp only [if_pos hty]
            exact doCall_settles h f ty _ hc
          · rename_i hty
            exact .of fun _ => by simp only [if_neg hty]
        · exact .of fun _ => rfl
      · exact .of fun _ => rfl
    · exact .of fun _ => rfl
  case loc op i => cases op <;> exact fun c hc => .of fun _ => rfl
  case glob op i => cases op <;> exact fun c hc => .of fun _ => rfl
  all_goals exact fun c hc => .of fun _ => rfl

theorem den_settles (h : Settles calls lim) :
    (∀ i : HI, CodeSettles (fun d => denI ⟨N, ftype, calls d, L⟩ i) (denI ⟨N, ftype, lim, L⟩ i)) ∧
    (∀ l : List HI, CodeSettles (fun d => denL ⟨N, ftype, calls d, L⟩ l) (denL ⟨N, ftype, lim, L⟩ l)) := by
  apply HI.induct
  · intro b c hc; simpa only [denI] using step_settles h b c (by simpa only [denI] using hc)
  · intro t body ih c hc
    simpa only [denI] using ih.inBlock t c (by simpa only [denI] using hc)
  · intro t body ih c hc
    simpa only [denI] using ih.inLoop t L c (by simpa only [denI] using hc)
  · intro t thn ih c hc
    simpa only [denI] using (ih.inBlock t).branchOn ((CodeSettles.const Out.norm).inBlock t) c (by simpa only [denI] using hc)
  · intro t thn els ih1 ih2 c hc
    simpa only [denI] using (ih1.inBlock t).branchOn (ih2.inBlock t) c (by simpa only [denI] using hc)
  · intro c hc; exact .of fun _ => by simp only [denL]
  · intro i l ih1 ih2 c hc
    simpa only [denL] using (ih1.bind ih2) c (by simpa only [denL] using hc)

theorem denFlat_settles (h : Settles calls lim) (code : List LInstr) : CodeSettles (fun d => denFlat ⟨N, ftype, calls d, L⟩ code) (denFlat ⟨N, ftype, lim, L⟩ code) := by
  intro c hc
  unfold denFlat at hc ⊢
  cases hr : raise code with
  | error e => exact .of fun _ => rfl
  | ok b =>
    rw [hr] at hc
    exact (den_settles h).2 b c hc

theorem runImpl_settles {H : Imports W} {f : Func} (hst : ∀ ns name, f.code = .imported ns name → Steady (H ns name)) (h : Settles calls lim) (args : List RVal) (s : Store W)
    (hc : runImpl ⟨N, ftype, lim, L⟩ f.type (implOf H f) args s ≠ .fuel) :
    Eventually fun d => runImpl ⟨N, ftype, calls d, L⟩ f.type (implOf H f) args s = runImpl ⟨N, ftype, lim, L⟩ f.type (implOf H f) args s := by
  unfold implOf at hc ⊢
  cases hf : f.code with
  | imported ns name =>
    rw [hf] at hc
    exact hst ns name hf calls lim h args s hc
  | present c =>
    rw [hf] at hc
    simp only [runImpl, runBody] at hc ⊢
    refine (denFlat_settles (N := N) (ftype := ftype) (L := L) h c.body _ ?_).mono fun d e => by dsimp only at e; rw [e]
    intro e
    rw [e] at hc
    simp at hc
end

/-- The imports of a program are steady. -/
def SteadyImports (m : Module) (H : Imports W) : Prop := ∀ f ∈ m.functions, ∀ ns name, f.code = .imported ns name → Steady (H ns name)

section
variable {N : Num} {L : Nat} {m : Module} {H : Imports W}

theorem callF_missing {fs : List Func} {i : Nat} (hf : fs[i]? = none) (d : Nat) (args : List RVal) (s : Store W) :
    callF N (machineOf H fs) L (d + 1) i args s = .stuck := by simp only [callF, machineOf, hf, Option.map_none]

theorem callF_succ (hst : SteadyImports m H) (d f : Nat) (args : List RVal) (s : Store W) (h : callF N (machineOf H m.functions) L d f args s ≠ .fuel) :
    callF N (machineOf H m.functions) L (d + 1) f args s = callF N (machineOf H m.functions) L d f args s := by
  induction d generalizing f args s with
  | zero => exact absurd rfl h
  | succ d ih =>
    cases hf : m.functions[f]? with
    | none => rw [callF_missing hf, callF_missing hf]
    | some g =>
      rw [callF_runImpl hf] at h ⊢
      rw [callF_runImpl hf]
      exact (runImpl_settles (calls := fun _ => callF N (machineOf H m.functions) L (d + 1)) (lim := callF N (machineOf H m.functions) L d)
        (hst g (List.mem_of_getElem? hf)) (fun f args s h => .of fun _ => ih f args s h) args s h).const

/-- More call depth does not change the outcome of a call that ends. -/
theorem callF_mono (hst : SteadyImports m H) {d d' : Nat} (hd : d ≤ d') (f : Nat) (args : List RVal) (s : Store W) (h : callF N (machineOf H m.functions) L d f args s ≠ .fuel) :
    callF N (machineOf H m.functions) L d' f args s = callF N (machineOf H m.functions) L d f args s := by
  induction hd with
  | refl => rfl
  | step hd ih => rw [← ih]; exact callF_succ hst _ _ _ _ (by rw [ih]; exact h)

open Classical in
/-- What a call does with no bound on the call depth. -/
noncomputable def callLim (N : Num) (H : Imports W) (fs : List Func) (L : Nat) : CallFn W := fun f args s =>
  if h : ∃ d, callF N (machineOf H fs) L d f args s ≠ .fuel then callF N (machineOf H fs) L (choose h) f args s else .fuel

theorem callLim_spec (f : Nat) (args : List RVal) (s : Store W) : ∃ d, callLim N H m.functions L f args s = callF N (machineOf H m.functions) L d f args s := by
  unfold callLim
  split
  · exact ⟨_, rfl⟩
  · exact ⟨0, rfl⟩

theorem callLim_eq (hst : SteadyImports m H) {d f : Nat} {args : List RVal} {s : Store W} (h : callF N (machineOf H m.functions) L d f args s ≠ .fuel) :
    callLim N H m.functions L f args s = callF N (machineOf H m.functions) L d f args s := by
  unfold callLim
  have hex : ∃ d, callF N (machineOf H m.functions) L d f args s ≠ .fuel := ⟨d, h⟩
  rw [dif_pos hex]
  have h1 := Classical.choose_spec hex
  generalize Classical.choose hex = e at h1
  rcases Nat.le_total d e with hle | hle
  · exact callF_mono hst hle f args s h
  · exact (callF_mono hst hle f args s h1).symm

theorem callLim_settles (hst : SteadyImports m H) : Settles (callF N (machineOf H m.functions) L) (callLim N H m.functions L) := by
  intro f args s h
  obtain ⟨d, e⟩ := callLim_spec (N := N) (L := L) (m := m) (H := H) f args s
  rw [e] at h ⊢
  exact ⟨d, fun d' hd => callF_mono hst hd f args s h⟩

/-- The environment in which bodies run with no bound on the call depth. -/
noncomputable def envLim (N : Num) (H : Imports W) (fs : List Func) (L : Nat) : Env W := ⟨N, fun k => fs[k]?.map (·.type), callLim N H fs L, L⟩

theorem runImpl_lim (hst : SteadyImports m H) {f : Nat} {g : Func} (hf : m.functions[f]? = some g) {args : List RVal} {s : Store W}
    (h : runImpl (envLim N H m.functions L) g.type (implOf H g) args s ≠ .fuel) :
    callLim N H m.functions L f args s = runImpl (envLim N H m.functions L) g.type (implOf H g) args s := by
  obtain ⟨d0, h1⟩ := runImpl_settles (N := N) (L := L) (ftype := (envLim N H m.functions L).ftype) (hst g (List.mem_of_getElem? hf)) (callLim_settles (N := N) (L := L) hst) args s h
  have h2 := h1 d0 (Nat.le_refl _)
  have e : callF N (machineOf H m.functions) L (d0 + 1) f args s = runImpl (envLim N H m.functions L) g.type (implOf H g) args s := by
    rw [callF_runImpl hf]
    have : envAt N (machineOf H m.functions) L d0 = ⟨N, fun k => m.functions[k]?.map (·.type), callF N (machineOf H m.functions) L d0, L⟩ := by
      rw [envAt, ← envAt_types (N := N) (L := L) m.functions d0 H]
      rfl
    rw [this]
    exact h2
  rw [← e]
  exact callLim_eq hst (by rw [e]; exact h)

end

end Wastrum
