import Verif.Lemmas.FxNames

/-!
# C09: function symbols in one module are distinct
-/

namespace Verif

open Names

/-- C09: for every sequence of imports, the functions in the MLIR module have pairwise different
symbols. -/
theorem C09_symbols_distinct (calls : List Call) :
    ((Names.run calls).symbols.map Prod.fst).Nodup :=
  foldl_nodup calls _ (by simp)

/-- C09: a graph module is always referred to by the same symbol: what was recorded for it after
some imports is recorded for it after any further imports. -/
theorem C09_same_reference (calls more : List Call) (id : Nat) (n : String)
    (h : (Names.run calls).reference id = some n) :
    (Names.run (calls ++ more)).reference id = some n := by
  have : Names.run (calls ++ more) = more.foldl call (Names.run calls) := by
    simp [Names.run]
  rw [State.reference, this]
  exact foldl_keeps more _ id n h

/-- C09 for imports in which no graph module occurs twice, programs have names of their own, and no
asked name is another asked graph module name followed by `_` and a number: every graph module is
referred to by a symbol that names the function generated from it, different graph modules by
different symbols, and every program gets its own name as symbol. -/
theorem C09_partial (calls : List Call)
    (hids : (calls.flatMap Call.ids).Nodup)
    (hprogs : (calls.flatMap Call.programNames).Nodup)
    (hsep : ∀ p ∈ calls.flatMap Call.programNames, p ∉ calls.flatMap Call.moduleNames)
    (hgen : ∀ a ∈ calls.flatMap Call.moduleNames ++ calls.flatMap Call.programNames,
      ∀ b ∈ calls.flatMap Call.moduleNames, ¬ LooksGenerated a b) :
    (∀ i ∈ calls.flatMap Call.ids, ∃ n, (Names.run calls).reference i = some n ∧
      (Names.run calls).resolve n = some (.graphModule i)) ∧
    (∀ i j n, (Names.run calls).reference i = some n → (Names.run calls).reference j = some n →
      i = j) ∧
    (∀ p ∈ calls.flatMap Call.programNames, (Names.run calls).resolve p = some .program) := by
  obtain ⟨done, progs, h, h1, _, h2, _⟩ := foldl_inv
    (R := (· ∈ calls.flatMap Call.moduleNames)) (P := (· ∈ calls.flatMap Call.programNames))
    (fun a b ha hb => hgen a (List.mem_append_left _ ha) b hb) hsep
    (fun p b hp hb => hgen p (List.mem_append_right _ hp) b hb)
    calls ⟨[], 0, [], 0⟩ [] [] []
    ⟨by simp, by simp, by simp, by simp, by simp, by simp, by simp⟩
    (by intro i _; rfl) (by simp) (fun _ h => h) (fun _ h => h) hids (by simp) hprogs (by simp)
  exact ⟨fun i hi => h.made i (h1 i hi), h.inj, fun p hp => (h.progsMade p (h2 p hp)).2⟩

/-- C09 fails for names that look like generated ones: modules imported as `f_0`, `f`, `f`; the
third gets the generated name `f_0`, so the first and the third, different modules, are referred to
by one symbol, and references to the third reach the first's function. -/
theorem C09_violated : ∃ calls : List Call,
    (Names.run calls).reference 1 = some "f_0" ∧ (Names.run calls).reference 3 = some "f_0" ∧
    (Names.run calls).resolve "f_0" = some (.graphModule 1) := by
  refine ⟨[.graphModule (.mk 1 []) "f_0", .graphModule (.mk 2 []) "f",
    .graphModule (.mk 3 []) "f"], ?_, ?_, ?_⟩ <;> decide +kernel

/-- C09 fails also without such names if a graph module is shared: the second function made for
the shared child is renamed by MLIR to `cond_0`, a third module's child `cond` then gets the
generated name `cond_0`, and references to it reach the shared child's function. -/
theorem C09_sharing_violated : ∃ children : List (String × GM),
    let st := Names.run [.program children "main"]
    st.reference 13 = some "cond_0" ∧ st.resolve "cond_0" = some (.graphModule 12) := by
  let shared : GM := .mk 12 []
  refine ⟨[("a", .mk 1 [("cond", shared)]), ("b", .mk 2 [("cond", shared)]),
    ("c", .mk 3 [("cond", .mk 13 [])])], ?_, ?_⟩ <;> decide +kernel

/-- C09: a program's function loses its name if a child graph module has that name. -/
theorem C09_program_violated : ∃ children : List (String × GM),
    let st := Names.run [.program children "main"]
    st.resolve "main" = some (.graphModule 1) ∧ st.resolve "main_0" = some .program := by
  refine ⟨[("main", .mk 1 [])], ?_, ?_⟩ <;> decide +kernel

/-- A program with two loops whose condition and body modules have the same names in both loops. -/
example :
    let st := Names.run [.program [("true_graph", .mk 1 [("cond", .mk 2 []), ("body", .mk 3 [])]),
      ("false_graph", .mk 4 [("cond", .mk 5 []), ("body", .mk 6 [])])] "main"]
    (st.reference 2, st.reference 3, st.reference 5, st.reference 6) =
      (some "cond", some "body", some "cond_0", some "body_1") ∧
    st.resolve "cond_0" = some (.graphModule 5) ∧ st.resolve "main" = some .program := by
  refine ⟨?_, ?_, ?_⟩ <;> decide +kernel

end Verif
