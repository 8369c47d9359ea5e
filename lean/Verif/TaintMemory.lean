import Verif.TaintFlow

/-!
# How `taint` would carry marks through the memory and globals (C78)
-/

namespace Wastrum

/-- Where a mark of the memory is kept: one per address, and no mark for addresses beyond the mirror. -/
def MarkedAt (memory : List Bool) (a : Nat) : Prop := memory[a]? = some true

theorem taint_memoryFor {cap : Nat} {a : BitVec 32} {o : BitVec 64} (ha : a.toNat < 2 ^ 31) (ho : a.toNat + o.toNat + 1 < 2 ^ 32) (hc : a.toNat + o.toNat < cap) (s : TaintState) :
    ∃ memory, s.memoryFor cap a o = some (a.toNat + o.toNat, memory) ∧ a.toNat + o.toNat < memory.length ∧ ∀ j, MarkedAt memory j ↔ MarkedAt s.memory j := by
  obtain ⟨h1, h2⟩ := usize_of_index (i := o) (by omega)
  have h3 : i32ToUsize a = some a := by
    have : a.toInt = a.toNat := BitVec.toInt_eq_toNat_of_lt (by omega)
    rw [i32ToUsize, if_pos (by omega)]
  have h4 : (a + o.setWidth 32).toNat = a.toNat + o.toNat := by
    rw [BitVec.toNat_add, h2]
    omega
  have h5 : (a + o.setWidth 32 + 1).toNat = a.toNat + o.toNat + 1 := by
    rw [BitVec.toNat_add, h4]
    show (a.toNat + o.toNat + 1) % 2 ^ 32 = _
    omega
  simp only [TaintState.memoryFor, h3, h1, Option.bind_some, h4, h5]
  split
  · rename_i hl
    rw [if_pos (by omega)]
    refine ⟨_, rfl, ?_, fun j => ?_⟩
    · simp only [vecResize, List.length_append, List.length_take, List.length_replicate]; omega
    · unfold MarkedAt
      rw [vecResize_get _ (by omega)]
      split
      · exact .rfl
      · rename_i hj
        rw [List.getElem?_eq_none (by omega : s.memory.length ≤ j)]
        split <;> simp
  · exact ⟨_, rfl, by omega, fun _ => .rfl⟩

/-- **C78 (stores carry marks, to one address).** From any state with a block on its stack, the events of an expression for the address, an expression for the value and the store leave the state as it was except
for the mirror of the memory: the address the store begins at is marked exactly if the value depends on a marked variable; all other addresses, among them those of the other bytes that are stored, are marked
as before. (The address is `a`, with the static offset `o`.) -/
theorem C78_stores_carry_marks (cap : Nat) (address value : TaintExpr) (h : address.Small) (h' : value.Small) (a : BitVec 32) (o : BitVec 64) (ha : a.toNat < 2 ^ 31) (ho : a.toNat + o.toNat + 1 < 2 ^ 32)
    (hc : a.toNat + o.toNat < cap) (v : Val) (op : StoreOp) (l : Location) (vs : List Bool) (blocks : List (List Bool)) (locals : List (Option Bool)) (frames : List TaintFrame) (memory globals : List Bool)
    (returned : Option Bool) :
    ∃ memory' : List Bool, (taint cap).run (address.events ++ value.events ++ [.store a v o op l]) ⟨⟨vs :: blocks, locals⟩ :: frames, memory, globals, returned⟩ =
        some ⟨⟨vs :: blocks, locals⟩ :: frames, memory', globals, returned⟩ ∧
      (MarkedAt memory' (a.toNat + o.toNat) ↔ value.Depends fun j => locals[j.toNat]? = some (some true)) ∧
      ∀ j, j ≠ a.toNat + o.toNat → (MarkedAt memory' j ↔ MarkedAt memory j) := by
  obtain ⟨t, h1, _⟩ := C78_expressions_carry_marks cap address h vs blocks locals frames memory globals returned
  obtain ⟨t', h2, h3⟩ := C78_expressions_carry_marks cap value h' (t :: vs) blocks locals frames memory globals returned
  obtain ⟨m, h4, h5, h6⟩ := taint_memoryFor ha ho hc (⟨⟨vs :: blocks, locals⟩ :: frames, memory, globals, returned⟩ : TaintState)
  refine ⟨m.set (a.toNat + o.toNat) t', ?_, ?_, ?_⟩
  · rw [Watcher.run_append, Watcher.run_append, h1, Option.bind_some, h2, Option.bind_some, taint_run_one]
    simp only [taintAdvice, TaintState.pop, TaintState.memorySet, h4, Option.bind_some, Option.getD_some, vecSet, if_pos h5, Option.map_some]
  · rw [MarkedAt, List.getElem?_set_self h5, ← h3]
    simp
  · intro j hj
    rw [MarkedAt, List.getElem?_set_ne (Ne.symm hj)]
    exact h6 j

/-- **C78 (loads carry marks, from one address).** From any state with a block on its stack, the events of an expression for the address and of the load add one value to the block, marked exactly if the address
the load begins at is marked: not if only the address depends on a marked variable, nor if only another of the bytes loaded is marked. No address is marked that was not, and none loses its mark. -/
theorem C78_loads_carry_marks (cap : Nat) (address : TaintExpr) (h : address.Small) (a : BitVec 32) (o : BitVec 64) (ha : a.toNat < 2 ^ 31) (ho : a.toNat + o.toNat + 1 < 2 ^ 32) (hc : a.toNat + o.toNat < cap)
    (op : LoadOp) (l : Location) (vs : List Bool) (blocks : List (List Bool)) (locals : List (Option Bool)) (frames : List TaintFrame) (memory globals : List Bool) (returned : Option Bool) :
    ∃ (t : Bool) (memory' : List Bool), (taint cap).run (address.events ++ [.load a o op l]) ⟨⟨vs :: blocks, locals⟩ :: frames, memory, globals, returned⟩ =
        some ⟨⟨(t :: vs) :: blocks, locals⟩ :: frames, memory', globals, returned⟩ ∧
      (t = true ↔ MarkedAt memory (a.toNat + o.toNat)) ∧ ∀ j, MarkedAt memory' j ↔ MarkedAt memory j := by
  obtain ⟨b, h1, _⟩ := C78_expressions_carry_marks cap address h vs blocks locals frames memory globals returned
  obtain ⟨m, h4, h5, h6⟩ := taint_memoryFor ha ho hc (⟨⟨vs :: blocks, locals⟩ :: frames, memory, globals, returned⟩ : TaintState)
  refine ⟨m[a.toNat + o.toNat], m, ?_, ?_, h6⟩
  · rw [Watcher.run_append, h1, Option.bind_some, taint_run_one]
    simp only [taintAdvice, TaintState.pop, TaintState.memoryGet, h4, Option.bind_some, List.getElem?_eq_getElem h5, Option.map_some, TaintState.push]
  · rw [← h6, MarkedAt, List.getElem?_eq_getElem h5]
    simp

-- C78 (the memory): storing the marked variable 0 at address 2 + 1 marks address 3, and not address 4, where the second byte is; a load from address 3 is marked then, one from address 4 is not.
example : ∃ m : List Bool,
    (taint 100).run ((TaintExpr.const (.i32 2) (.new 4 0)).events ++ (TaintExpr.var 0 (.i32 7) (.new 4 1)).events ++ [.store 2 (.i32 7) 1 .i32Store (.new 4 2)]) ⟨[⟨[[]], [some true]⟩], [], [], none⟩ =
      some ⟨[⟨[[]], [some true]⟩], m, [], none⟩ ∧
    (∃ m', (taint 100).run ((TaintExpr.const (.i32 3) (.new 4 3)).events ++ [.load 3 0 .i32Load (.new 4 4)]) ⟨[⟨[[]], [some true]⟩], m, [], none⟩ = some ⟨[⟨[[true]], [some true]⟩], m', [], none⟩) ∧
    (∃ m', (taint 100).run ((TaintExpr.const (.i32 4) (.new 4 3)).events ++ [.load 4 0 .i32Load (.new 4 4)]) ⟨[⟨[[]], [some true]⟩], m, [], none⟩ = some ⟨[⟨[[false]], [some true]⟩], m', [], none⟩) := by
  obtain ⟨m, h, h1, h2⟩ := C78_stores_carry_marks 100 (.const (.i32 2) (.new 4 0)) (.var 0 (.i32 7) (.new 4 1)) (by simp [TaintExpr.Small]) (by simp [TaintExpr.Small]) 2 1 (by decide) (by decide) (by decide)
    (.i32 7) .i32Store (.new 4 2) [] [] [some true] [] [] [] none
  obtain ⟨t, m', h3, h4, _⟩ := C78_loads_carry_marks 100 (.const (.i32 3) (.new 4 3)) (by simp [TaintExpr.Small]) 3 0 (by decide) (by decide) (by decide) .i32Load (.new 4 4) [] [] [some true] [] m [] none
  obtain ⟨t', m'', h5, h6, _⟩ := C78_loads_carry_marks 100 (.const (.i32 4) (.new 4 3)) (by simp [TaintExpr.Small]) 4 0 (by decide) (by decide) (by decide) .i32Load (.new 4 4) [] [] [some true] [] m [] none
  have e : t = true := h4.2 (h1.2 (by simp [TaintExpr.Depends]))
  have e' : t' = false := by
    cases t' with
    | false => rfl
    | true => exact absurd ((h2 4 (by decide)).1 (h6.1 rfl)) (by simp [MarkedAt])
  subst e e'
  exact ⟨m, h, ⟨m', h3⟩, ⟨m'', h5⟩⟩

/-- **C78 (globals carry marks).** From any state with a block on its stack, the events of an expression and of its assignment to a global `i` leave the state as it was except for the marks of globals: `i` is marked
exactly if the expression depends on a marked variable, the others as before; reading a global adds one value to the block, marked exactly if the global is, and changes no mark. -/
theorem C78_globals_carry_marks (cap : Nat) (e : TaintExpr) (h : e.Small) (i : BitVec 64) (hi : i.toNat + 1 < 2 ^ 32) (v : Val) (l : Location)
    (vs : List Bool) (blocks : List (List Bool)) (locals : List (Option Bool)) (frames : List TaintFrame) (memory globals : List Bool) (returned : Option Bool) :
    (∃ globals' : List Bool, (taint cap).run (e.events ++ [.glob v i .set l]) ⟨⟨vs :: blocks, locals⟩ :: frames, memory, globals, returned⟩ =
        some ⟨⟨vs :: blocks, locals⟩ :: frames, memory, globals', returned⟩ ∧
      (MarkedAt globals' i.toNat ↔ e.Depends fun j => locals[j.toNat]? = some (some true)) ∧ ∀ j, j ≠ i.toNat → (MarkedAt globals' j ↔ MarkedAt globals j)) ∧
    ∃ (t : Bool) (globals' : List Bool), (taint cap).run [.glob v i .get l] ⟨⟨vs :: blocks, locals⟩ :: frames, memory, globals, returned⟩ =
        some ⟨⟨(t :: vs) :: blocks, locals⟩ :: frames, memory, globals', returned⟩ ∧
      (t = true ↔ MarkedAt globals i.toNat) ∧ ∀ j, MarkedAt globals' j ↔ MarkedAt globals j := by
  obtain ⟨t, h1, h2⟩ := C78_expressions_carry_marks cap e h vs blocks locals frames memory globals returned
  obtain ⟨h3, h4⟩ := usize_of_index (i := i) (by omega)
  have h5 : (i.setWidth 32 + 1).toNat = i.toNat + 1 := by
    rw [BitVec.toNat_add, h4]
    show (i.toNat + 1) % 2 ^ 32 = _
    omega
  obtain ⟨grown, hg, hlen, hsame⟩ : ∃ grown : List Bool, (if globals.length ≤ i.toNat then vecResize globals (i.toNat + 1) false else globals) = grown ∧ i.toNat < grown.length ∧
      ∀ j, MarkedAt grown j ↔ MarkedAt globals j := by
    refine ⟨_, rfl, ?_, fun j => ?_⟩
    · split
      · simp only [vecResize, List.length_append, List.length_take, List.length_replicate]; omega
      · omega
    · split
      · unfold MarkedAt
        rw [vecResize_get _ (by omega)]
        split
        · exact .rfl
        · rename_i hj
          rw [List.getElem?_eq_none (by omega : globals.length ≤ j)]
          split <;> simp
      · exact .rfl
  refine ⟨⟨grown.set i.toNat t, ?_, ?_, fun j hj => ?_⟩, grown[i.toNat], grown, ?_, ?_, hsame⟩
  · rw [Watcher.run_append, h1, Option.bind_some, taint_run_one]
    simp only [taintAdvice, TaintState.pop, TaintState.globalsSet, h3, h4, h5, Option.bind_some, hg, vecSet, if_pos hlen, Option.map_some]
  · rw [MarkedAt, List.getElem?_set_self hlen, ← h2]
    simp
  · rw [MarkedAt, List.getElem?_set_ne (Ne.symm hj)]
    exact hsame j
  · rw [taint_run_one]
    simp only [taintAdvice, TaintState.globalsGet, h3, h4, h5, Option.bind_some, hg, List.getElem?_eq_getElem hlen, Option.map_some, TaintState.push]
  · rw [← hsame, MarkedAt, List.getElem?_eq_getElem hlen]
    simp

-- C78 (globals): assigning the marked variable 0 to global 2 marks it, also if no global has been seen yet, and not global 1.
example : ∃ g : List Bool, (taint 100).run ((TaintExpr.var 0 (.i32 7) (.new 4 1)).events ++ [.glob (.i32 7) 2 .set (.new 4 2)]) ⟨[⟨[[]], [some true]⟩], [], [], none⟩ =
    some ⟨[⟨[[]], [some true]⟩], [], g, none⟩ ∧ MarkedAt g 2 ∧ ¬ MarkedAt g 1 := by
  obtain ⟨⟨g, h, h1, h2⟩, _⟩ := C78_globals_carry_marks 100 (.var 0 (.i32 7) (.new 4 1)) (by simp [TaintExpr.Small]) 2 (by decide) (.i32 7) (.new 4 2) [] [] [some true] [] [] [] none
  exact ⟨g, h, h1.2 (by simp [TaintExpr.Depends]), fun hg => absurd ((h2 1 (by decide)).1 hg) (by simp [MarkedAt])⟩

end Wastrum
