import Verif.Props.Builtin

/-! Property C133: imports that panic, and the order of the symbols. -/
namespace Tpl.Props
open Tpl Tpl.Qlang Tpl.Spec
variable {α : Type}

/-- What a name stands for after the symbols have been tried: what the table says, or what it was. -/
theorem importLoop_between : ∀ (table : List (Str × Sym α)) (tab : Str → Option (Sym α)) (n : Str),
    (importLoop tab table).2 n = tab n ∨ ∃ s, (n, s) ∈ table ∧ (importLoop tab table).2 n = some s
  | [], tab, n => .inl rfl
  | (name, fn) :: more, tab, n => by
    unfold importLoop
    split
    · exact .inl rfl
    · rcases importLoop_between more (fun m => if m = name then some fn else tab m) n with h | ⟨s, h1, h2⟩
      · by_cases hn : n = name
        · subst hn
          rw [if_pos rfl] at h
          exact .inr ⟨fn, List.mem_cons_self .., h⟩
        · rw [if_neg hn] at h
          exact .inl h
      · exact .inr ⟨s, List.mem_cons_of_mem _ h1, h2⟩

/-- C133, the part that holds: the order in which Go goes through the table decides neither whether there is a
panic nor, if there is none, what the names stand for. Missing: what is added before a panic (`C133_violated`). -/
theorem C133_order_partial (mk : List (Str × Sym α) → α) (tab : Str → Option (Sym α)) {table table' : List (Str × Sym α)}
    (hn : (table.map Prod.fst).Nodup) (hp : table.Perm table') :
    ((Import mk tab [] table).1 = none ↔ (Import mk tab [] table').1 = none) ∧
    ((Import mk tab [] table).1 = none → ∀ n, (Import mk tab [] table).2 n = (Import mk tab [] table').2 n) := by
  have hn' : (table'.map Prod.fst).Nodup := (hp.map Prod.fst).nodup_iff.mp hn
  have hiff : (Import mk tab [] table).1 = none ↔ (Import mk tab [] table').1 = none := by
    have h1 := C73_panics mk tab table hn
    have h2 := C73_panics mk tab table' hn'
    have h3 : (∃ p ∈ table, Taken tab p.1) ↔ ∃ p ∈ table', Taken tab p.1 :=
      ⟨fun ⟨p, h, ht⟩ => ⟨p, hp.mem_iff.mp h, ht⟩, fun ⟨p, h, ht⟩ => ⟨p, hp.mem_iff.mpr h, ht⟩⟩
    rw [Option.eq_none_iff_forall_ne_some, Option.eq_none_iff_forall_ne_some]
    constructor
    · intro h n e
      obtain ⟨n', e'⟩ := h1.mpr (h3.mpr (h2.mp ⟨n, e⟩))
      exact h n' e'
    · intro h n e
      obtain ⟨n', e'⟩ := h2.mpr (h3.mp (h1.mp ⟨n, e⟩))
      exact h n' e'
  refine ⟨hiff, fun h n => ?_⟩
  have d := C73_defines mk tab table hn
  have d' := C73_defines mk tab table' hn'
  by_cases hm : n ∈ table.map Prod.fst
  · obtain ⟨p, hp1, rfl⟩ := List.mem_map.mp hm
    rw [d.1 h p hp1, d'.1 (hiff.mp h) p (hp.mem_iff.mp hp1)]
  · rw [d.2 n hm, d'.2 n (fun h' => hm ((hp.map Prod.fst).mem_iff.mpr h'))]

/-- C133, the part that holds: after an import, whether it panics or not, every name stands for what it stood for
before or for what the imported table says, and the names that were taken stand for what they did. -/
theorem C133_between_partial (mk : List (Str × Sym α) → α) (tab : Str → Option (Sym α)) (table : List (Str × Sym α)) (n : Str) :
    ((Import mk tab [] table).2 n = tab n ∨ ∃ s, (n, s) ∈ table ∧ (Import mk tab [] table).2 n = some s) ∧
    (Taken tab n → (Import mk tab [] table).2 n = tab n) := by
  refine ⟨importLoop_between table tab n, ?_⟩
  rintro ⟨a, ha⟩
  rw [ha]
  exact importLoop_keeps table tab n a ha

/-- C133: importing a module adds it as a whole or panics and adds nothing. -/
theorem C133_module (mk : List (Str × Sym α) → α) (tab : Str → Option (Sym α)) (table : List (Str × Sym α)) {mod : Str} (hm : mod ≠ [])
    {n : Str} (h : (Import mk tab mod table).1 = some n) : (Import mk tab mod table).2 = tab := by
  have c := C73_module mk tab table hm
  by_cases ht : tab mod = none
  · rw [(c.1 ht).1] at h; cases h
  · rw [c.2 ht]

/-- C133 does not hold: `b` is taken, and the import panics in either order of the symbols, but in one of them `a`
has been added, in the other it has not. -/
theorem C133_violated :
    let tab : Str → Option (Sym Nat) := fun n => if n = str "b" then some (.def_ 0) else none
    let r := Import (fun _ => 0) tab [] [(str "a", .def_ 1), (str "b", .def_ 2)]
    let r' := Import (fun _ => 0) tab [] [(str "b", .def_ 2), (str "a", .def_ 1)]
    r.1 = some (str "b") ∧ r'.1 = some (str "b") ∧ r.2 (str "a") = some (.def_ 1) ∧ r'.2 (str "a") = none := by
  refine ⟨rfl, rfl, rfl, rfl⟩

-- An import that goes well, in either order; `$add` is a placeholder.
example :
    let tab : Str → Option (Sym Nat) := fun n => if n = str "$add" then some .dummy2 else none
    (Import (fun _ => 0) tab [] [(str "a", .def_ 1), (str "$add", .def_ 2)]).1 = none ∧
    (Import (fun _ => 0) tab [] [(str "$add", .def_ 2), (str "a", .def_ 1)]).2 (str "$add") = some (.def_ 2) := ⟨rfl, rfl⟩

end Tpl.Props
