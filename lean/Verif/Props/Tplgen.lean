import Verif.Spec.Tplgen
import Verif.Props.Generator

/-
Properties of the program tplgen (C102-C106).
-/
namespace Tpl.Props
open Tpl Tpl.Spec Tpl.Gen Tpl.GenCmd KwScanner
variable {name : Str}

/-! ### Indices -/

theorem lastIndex_spec (name : Str) : ∀ (ns : List Str) (i : Nat) (found : Option Nat),
    (∃ j, lastIndex name i found ns = some (i + j) ∧ ns[j]? = some name) ∨ (lastIndex name i found ns = found ∧ ∀ j : Nat, ns[j]? ≠ some name)
  | [], _, _ => .inr ⟨rfl, fun _ h => by simp at h⟩
  | n :: ns, i, found => by
    rw [lastIndex]
    rcases lastIndex_spec name ns (i + 1) (if n = name then some i else found) with ⟨j, h1, h2⟩ | ⟨h1, h2⟩
    · exact .inl ⟨j + 1, by rw [h1]; congr 1; omega, by simpa using h2⟩
    · by_cases hn : n = name
      · rw [h1, if_pos hn]
        exact .inl ⟨0, rfl, by simp [hn]⟩
      · rw [h1, if_neg hn]
        refine .inr ⟨rfl, fun j => ?_⟩
        cases j with
        | zero => simpa using hn
        | succ j => simpa using h2 j

theorem firstIndex_spec (name : Str) : ∀ (ns : List (Option Str)) (i : Nat),
    (∃ j, firstIndex name i ns = some (i + j) ∧ ns[j]? = some (some name)) ∨ (firstIndex name i ns = none ∧ ∀ j : Nat, ns[j]? ≠ some (some name))
  | [], _ => .inr ⟨rfl, fun _ h => by simp at h⟩
  | n :: ns, i => by
    rw [firstIndex]
    by_cases hn : n = some name
    · rw [if_pos hn]
      exact .inl ⟨0, rfl, by simp [hn]⟩
    · rw [if_neg hn]
      rcases firstIndex_spec name ns (i + 1) with ⟨j, h1, h2⟩ | ⟨h1, h2⟩
      · exact .inl ⟨j + 1, by rw [h1]; congr 1; omega, by simpa using h2⟩
      · refine .inr ⟨h1, fun j => ?_⟩
        cases j with
        | zero => simpa using hn
        | succ j => simpa using h2 j

/-! ### The search, part by part -/

/-- What a part of the search gives: a literal of its part, or nothing if there is none. -/
def Finds (r : Except Crash Str) (P : Str → Prop) : Prop :=
  (∃ v, r = .ok v ∧ v ≠ [] ∧ P v) ∨ (r = .ok [] ∧ ∀ v, v ≠ [] → ¬ P v)

theorem litAt_finds {xs : List Expr} {i : Nat} (h : i < xs.length) : Finds (litAt xs i) fun v => xs[i]? = some (.lit v) := by
  unfold litAt
  rw [List.getElem?_eq_getElem h]
  cases xs[i] with
  | lit v =>
    dsimp only
    by_cases hv : v = []
    · subst hv
      exact .inr ⟨rfl, fun v hv h => by cases h; exact hv rfl⟩
    · exact .inl ⟨v, rfl, hv, rfl⟩
  | other => exact .inr ⟨rfl, fun v _ h => by cases h⟩

/-- Go on if nothing was found. -/
def orNext (r r' : Except Crash Str) : Except Crash Str := match r with
  | .error e => .error e
  | .ok [] => r'
  | .ok v => .ok v

theorem finds_next {r r' : Except Crash Str} {P P' R : Str → Prop} (h : Finds r P) (h' : Finds r' P') (hR : ∀ v, R v ↔ P v ∨ P' v) :
    Finds (orNext r r') R := by
  unfold orNext
  rcases h with ⟨v, rfl, hv, hp⟩ | ⟨rfl, hn⟩
  · cases v with
    | nil => exact absurd rfl hv
    | cons c v => exact .inl ⟨c :: v, rfl, hv, (hR _).2 (.inl hp)⟩
  · dsimp only
    rcases h' with ⟨v, rfl, hv, hp⟩ | ⟨rfl, hn'⟩
    · exact .inl ⟨v, rfl, hv, (hR _).2 (.inr hp)⟩
    · refine .inr ⟨rfl, fun v hv h => ?_⟩
      rcases (hR v).1 h with h | h
      · exact hn v hv h
      · exact hn' v hv h

theorem finds_congr {r : Except Crash Str} {P R : Str → Prop} (h : Finds r P) (hR : ∀ v, R v ↔ P v) : Finds r R := by
  rcases h with ⟨v, rfl, hv, hp⟩ | ⟨rfl, hn⟩
  · exact .inl ⟨v, rfl, hv, (hR v).2 hp⟩
  · exact .inr ⟨rfl, fun v hv h => hn v hv ((hR v).1 h)⟩

theorem genDecl_finds : ∀ (specs : List GSpec), OwnSpecs name specs → Finds (findInGenDecl name specs) (fun v => InSpecs name v specs)
  | [], _ => .inr ⟨rfl, fun v _ h => by cases h with | mk h => cases h⟩
  | .other :: specs, ho => by
    rw [findInGenDecl]
    refine finds_congr (genDecl_finds specs fun ns vs h => ho ns vs (List.mem_cons_of_mem _ h)) fun v => ⟨?_, ?_⟩
    · rintro ⟨hm, h1, h2⟩
      cases hm with
      | tail _ hm => exact ⟨hm, h1, h2⟩
    · rintro ⟨hm, h1, h2⟩
      exact ⟨List.mem_cons_of_mem _ hm, h1, h2⟩
  | .value names values :: specs, ho => by
    have hi := genDecl_finds specs fun ns vs h => ho ns vs (List.mem_cons_of_mem _ h)
    have hown := ho names values (List.mem_cons_self ..)
    rw [findInGenDecl]
    rcases lastIndex_spec name names 0 none with ⟨j, h1, h2⟩ | ⟨h1, h2⟩
    · rw [h1, Nat.zero_add]
      show Finds (orNext (litAt values j) (findInGenDecl name specs)) _
      refine finds_next (litAt_finds (hown.1 j h2)) hi fun v => ⟨?_, ?_⟩
      · rintro ⟨hm, h3, h4⟩
        cases hm with
        | head =>
          rw [hown.2 _ _ h3 h2] at h4
          exact .inl h4
        | tail _ hm => exact .inr ⟨hm, h3, h4⟩
      · rintro (h | ⟨hm, h3, h4⟩)
        · exact ⟨List.mem_cons_self .., h2, h⟩
        · exact ⟨List.mem_cons_of_mem _ hm, h3, h4⟩
    · rw [h1]
      refine finds_congr hi fun v => ⟨?_, ?_⟩
      · rintro ⟨hm, h3, h4⟩
        cases hm with
        | head => exact absurd h3 (h2 _)
        | tail _ hm => exact ⟨hm, h3, h4⟩
      · rintro ⟨hm, h3, h4⟩
        exact ⟨List.mem_cons_of_mem _ hm, h3, h4⟩

theorem assignment_finds {lhs : List (Option Str)} {rhs : List Expr} (ho : OwnValue lhs rhs (some name)) :
    Finds (findInAssignment name lhs rhs) (fun v => ∃ i : Nat, lhs[i]? = some (some name) ∧ rhs[i]? = some (.lit v)) := by
  unfold findInAssignment
  rcases firstIndex_spec name lhs 0 with ⟨j, h1, h2⟩ | ⟨h1, h2⟩
  · rw [h1, Nat.zero_add]
    refine finds_congr (litAt_finds (ho.1 j h2)) fun v => ⟨?_, fun h => ⟨j, h2, h⟩⟩
    rintro ⟨i, h3, h4⟩
    rw [ho.2 _ _ h3 h2] at h4
    exact h4
  · rw [h1]
    exact .inr ⟨rfl, fun v _ ⟨i, h3, _⟩ => h2 i h3⟩

/-- A statement declares or assigns. -/
inductive InStmt (name v : Str) : Stmt → Prop
  | decl {specs} : InSpecs name v specs → InStmt name v (.decl specs)
  | assign {lhs rhs} {i : Nat} : lhs[i]? = some (some name) → rhs[i]? = some (Expr.lit v) → InStmt name v (.assign lhs rhs)

theorem body_finds : ∀ (body : List Stmt), (∀ specs, Stmt.decl specs ∈ body → OwnSpecs name specs) →
    (∀ lhs rhs, Stmt.assign lhs rhs ∈ body → OwnValue lhs rhs (some name)) → Finds (findInBody name body) (fun v => ∃ s ∈ body, InStmt name v s)
  | [], _, _ => .inr ⟨rfl, fun v _ ⟨s, h, _⟩ => by simp at h⟩
  | s :: ss, h1, h2 => by
    have hi := body_finds ss (fun specs h => h1 specs (List.mem_cons_of_mem _ h)) (fun l r h => h2 l r (List.mem_cons_of_mem _ h))
    rw [findInBody]
    show Finds (orNext (findInStmt name s) (findInBody name ss)) _
    refine finds_next (P := fun v => InStmt name v s) ?_ hi fun v => by simp
    cases s with
    | decl specs =>
      refine finds_congr (genDecl_finds specs (h1 specs (List.mem_cons_self ..))) fun v => ⟨fun h => ?_, .decl⟩
      cases h; assumption
    | assign lhs rhs =>
      refine finds_congr (assignment_finds (h2 lhs rhs (List.mem_cons_self ..))) fun v => ⟨fun h => ?_, fun ⟨i, a, b⟩ => .assign a b⟩
      cases h with
      | assign a b => exact ⟨_, a, b⟩
    | other => exact .inr ⟨rfl, fun v _ h => by cases h⟩

theorem decl_finds {d : Decl} (h : OwnDecl name d) : Finds (findInDecl name d) (fun v => InDecl name v d) := by
  cases h with
  | gen h =>
    refine finds_congr (genDecl_finds _ h) fun v => ⟨fun h => ?_, .top⟩
    cases h; assumption
  | func h1 h2 =>
    refine finds_congr (body_finds _ h1 h2) fun v => ⟨fun h => ?_, ?_⟩
    · cases h with
      | loc hm h => exact ⟨_, hm, .decl h⟩
      | assign hm a b => exact ⟨_, hm, .assign a b⟩
    · rintro ⟨s, hm, hs⟩
      cases hs with
      | decl h => exact .loc hm h
      | assign a b => exact .assign hm a b

theorem file_finds : ∀ (f : List Decl), (∀ d ∈ f, OwnDecl name d) → Finds (findInFile name f) (fun v => ∃ d ∈ f, InDecl name v d)
  | [], _ => .inr ⟨rfl, fun v _ ⟨s, h, _⟩ => by simp at h⟩
  | d :: ds, h => by
    have hi := file_finds ds fun d hd => h d (List.mem_cons_of_mem _ hd)
    rw [findInFile]
    show Finds (orNext (findInDecl name d) (findInFile name ds)) _
    exact finds_next (decl_finds (h d (List.mem_cons_self ..))) hi fun v => by simp

theorem search_finds : ∀ (fs : List (Str × List Decl)), (∀ p ∈ fs, ∀ d ∈ p.2, OwnDecl name d) →
    (∃ pkg v, search name fs = .ok (some (pkg, v)) ∧ v ≠ [] ∧ ∃ f, (pkg, f) ∈ fs ∧ ∃ d ∈ f, InDecl name v d) ∨
    (search name fs = .ok none ∧ ∀ pkg v f, v ≠ [] → (pkg, f) ∈ fs → ∀ d ∈ f, ¬ InDecl name v d)
  | [], _ => .inr ⟨rfl, fun _ _ _ _ h => by simp at h⟩
  | (pkg, file) :: fs, h => by
    rw [search]
    rcases file_finds file (h _ (List.mem_cons_self ..)) with ⟨v, hr, hv, hp⟩ | ⟨hr, hn⟩
    · rw [hr]
      cases v with
      | nil => exact absurd rfl hv
      | cons c v => exact .inl ⟨pkg, c :: v, rfl, hv, file, List.mem_cons_self .., hp⟩
    · rw [hr]
      dsimp only
      rcases search_finds fs fun p hp => h p (List.mem_cons_of_mem _ hp) with ⟨p, v, h1, h2, f, h3, h4⟩ | ⟨h1, h2⟩
      · exact .inl ⟨p, v, h1, h2, f, List.mem_cons_of_mem _ h3, h4⟩
      · refine .inr ⟨h1, fun p v f hv hm d hd hi => ?_⟩
        rcases List.mem_cons.1 hm with e | hm
        · cases e; exact hn v hv ⟨d, hd, hi⟩
        · exact h2 p v f hv hm d hd hi

theorem mem_visits {pkgs : List (Str × List (List Decl))} {pkg : Str} {f : List Decl} :
    (pkg, f) ∈ visits pkgs ↔ ∃ files, (pkg, files) ∈ pkgs ∧ f ∈ files := by
  unfold visits
  simp only [List.mem_flatMap, List.mem_map, Prod.mk.injEq]
  constructor
  · rintro ⟨⟨p, fs⟩, h1, g, h2, rfl, rfl⟩
    exact ⟨fs, h1, h2⟩
  · rintro ⟨fs, h1, h2⟩
    exact ⟨(pkg, fs), h1, f, h2, rfl, rfl⟩

/-! ### C102 -/

/-- **C102**: in packages where everything called `name` has a value of its own, the search
finds a declaration, and it says that there is none only if there is none. -/
theorem C102_search {pkgs : List (Str × List (List Decl))} (hu : Usual pkgs name) :
    (∃ pkg v, search name (visits pkgs) = .ok (some (pkg, v)) ∧ Declared pkgs name pkg v) ∨
    (search name (visits pkgs) = .ok none ∧ ∀ pkg v, ¬ Declared pkgs name pkg v) := by
  rcases search_finds (name := name) (visits pkgs) (fun p hp d hd => by
      obtain ⟨files, h1, h2⟩ := mem_visits.1 hp
      exact hu.own _ files h1 _ h2 d hd) with ⟨pkg, v, h1, _, f, h3, h4⟩ | ⟨h1, h2⟩
  · obtain ⟨files, h5, h6⟩ := mem_visits.1 h3
    exact .inl ⟨pkg, v, h1, files, h5, f, h6, h4⟩
  · refine .inr ⟨h1, ?_⟩
    rintro pkg v ⟨files, h3, f, h4, d, h5, h6⟩
    exact h2 pkg v f (hu.lit v d ⟨pkg, files, f, h3, h4, h5⟩ h6) (mem_visits.2 ⟨files, h3, h4⟩) d h5 h6

/-- The program ends with what it has made of the text. -/
def ends (H : Host) (fuel : Nat) (pkg : Str) (ipt : Bool) (text : Str) : Option (End × Option Str) :=
  match genStaticCode H.uni H.orders fuel text with
  | none => none
  | some (.err e) => some (.gen (some e), none)
  | some .noDoc => some (.gen none, none)
  | some (.panic p) => some (.crash (.gen p), none)
  | some (.ok code) => match H.openOut with
    | some m => some (.fail m, none)
    | none => match H.render with
      | .error m => some (.fail m, some [])
      | .ok r => some (.ok, some (r pkg ipt code))

theorem main_ends {H : Host} {fuel : Nat} {ipt : Bool} {old : Option Str} {pkgs} {pkg v text : Str} (hp : H.parse = .ok pkgs)
    (hs : search name (visits pkgs) = .ok (some (pkg, v))) (hi : inner v = .ok text) : GenCmd.main H fuel name ipt old = ends H fuel pkg ipt text := by
  unfold GenCmd.main ends
  rw [hp]
  dsimp only
  rw [hs]
  dsimp only
  rw [hi]
  rfl

theorem interp_plain {s t : Str} (h : Interp s t) (hs : 92 ∉ s) : s = t := by
  induction h with
  | nil => rfl
  | plain _ _ _ _ ih =>
    simp only [List.mem_cons, not_or] at hs
    rw [ih hs.2]
  | _ => simp at hs

theorem inner_quotes (q : UInt8) (t : Str) : inner ([q] ++ t ++ [q]) = .ok t := by
  unfold inner
  rw [if_neg (by simp)]
  simp

theorem inner_plain {v t : Str} (h : GoString v t) (hv : (∃ s, v = str "`" ++ s) ∨ 92 ∉ v) : inner v = .ok t := by
  cases h with
  | raw h => exact inner_quotes 96 t
  | @quoted s _ h =>
    rcases hv with ⟨s', e⟩ | hv
    · cases e
    · have : s = t := interp_plain h (fun hm => hv (by simp [hm]))
      subst this
      exact inner_quotes 34 s

/-- **C102**: if there is one declaration of the name, by a raw string or a string without
backslashes, tplgen writes what `GenStaticCode` makes of its value, in the package of the
declaration, whatever the order in which it visits the files. -/
theorem C102_writes {H : Host} {fuel : Nat} {ipt : Bool} {old : Option Str} {pkgs} {pkg v text code : Str} {r} (hp : H.parse = .ok pkgs)
    (hu : Usual pkgs name) (hd : Declared pkgs name pkg v) (h1 : ∀ pkg' v', Declared pkgs name pkg' v' → pkg' = pkg ∧ v' = v)
    (hg : GoString v text) (hv : (∃ s, v = str "`" ++ s) ∨ 92 ∉ v) (hc : genStaticCode H.uni H.orders fuel text = some (.ok code))
    (ho : H.openOut = none) (hr : H.render = .ok r) :
    GenCmd.main H fuel name ipt old = some (.ok, some (r pkg ipt code)) := by
  rcases C102_search hu with ⟨pkg', v', hs, hd'⟩ | ⟨_, hn⟩
  · obtain ⟨rfl, rfl⟩ := h1 _ _ hd'
    rw [main_ends hp hs (inner_plain hg hv)]
    unfold ends
    rw [hc]
    dsimp only
    rw [ho, hr]
  · exact absurd hd (hn _ _)

/-- **C102**: with C74: the code in the written file builds the tables `Cl` builds for the
declared grammar. -/
theorem C102_builds {B : Type} (c : Compiler B) {H : Host} {ipt : Bool} {old : Option Str} {pkgs} {pkg v : Str} {r} (hp : H.parse = .ok pkgs)
    (hu : Usual pkgs name) (hd : Declared pkgs name pkg v) (h1 : ∀ pkg' v', Declared pkgs name pkg' v' → pkg' = pkg ∧ v' = v)
    (hg : GoString v c.grammar) (hv : (∃ s, v = str "`" ++ s) ∨ 92 ∉ v) {ts : List Token} {eof : Token} {rs : List Rule}
    (ht : Tokenizes H.uni KwScanner.zero c.grammar clMode ts eof) (hd' : IsDoc ts rs) (hm : Mild rs)
    {fuel : Nat} {ret : CompileRet B} (hc : c.cl H.uni fuel KwScanner.zero = some (.ok ret)) (ho : H.openOut = none) (hr : H.render = .ok r) :
    ∃ (fuel' : Nat) (P : GoProg), GenCmd.main H fuel' name ipt old = some (.ok, some (r pkg ipt P.text)) ∧ P.Builds c.marker ret.tab := by
  obtain ⟨f, P, h2, h3⟩ := C74_builds_partial c H.orders ht hd' hm hc
  exact ⟨f, P, C102_writes hp hu hd h1 hg hv h2 ho hr, h3⟩

/-! ### C103 -/

theorem same_declared {pkgs pkgs' : List (Str × List (List Decl))} (hs : SameFiles pkgs pkgs') {pkg v : Str} (h : Declared pkgs name pkg v) :
    Declared pkgs' name pkg v := by
  obtain ⟨files, h1, f, h2, h3⟩ := h
  obtain ⟨files', h4, h5⟩ := (hs pkg f).1 ⟨files, h1, h2⟩
  exact ⟨files', h4, f, h5, h3⟩

theorem same_usual {pkgs pkgs' : List (Str × List (List Decl))} (hs : SameFiles pkgs pkgs') (h : Usual pkgs name) : Usual pkgs' name where
  own := by
    intro pkg files h1 f h2 d h3
    obtain ⟨files', h4, h5⟩ := (hs pkg f).2 ⟨files, h1, h2⟩
    exact h.own pkg files' h4 f h5 d h3
  lit := by
    rintro v d ⟨pkg, files, f, h1, h2, h3⟩ hi
    obtain ⟨files', h4, h5⟩ := (hs pkg f).2 ⟨files, h1, h2⟩
    exact h.lit v d ⟨pkg, files', f, h4, h5, h3⟩ hi

/-- **C103** (partial): the order in which the files are visited does not matter, if there is at
most one declaration of the name and everything of this name has a value of its own.
Missing: `C103_violated`. -/
theorem C103_order_partial {H H' : Host} {fuel : Nat} {ipt : Bool} {old : Option Str} {pkgs pkgs' : List (Str × List (List Decl))}
    (hp : H.parse = .ok pkgs) (hp' : H' = { H with parse := .ok pkgs' }) (hs : SameFiles pkgs pkgs') (hu : Usual pkgs name)
    (h1 : ∀ pkg v pkg' v', Declared pkgs name pkg v → Declared pkgs name pkg' v' → pkg = pkg' ∧ v = v') :
    GenCmd.main H fuel name ipt old = GenCmd.main H' fuel name ipt old := by
  have hs' : SameFiles pkgs' pkgs := fun p f => (hs p f).symm
  have he : search name (visits pkgs) = search name (visits pkgs') := by
    rcases C102_search hu with ⟨pkg, v, e, hd⟩ | ⟨e, hn⟩
    · rcases C102_search (same_usual hs hu) with ⟨pkg', v', e', hd'⟩ | ⟨e', hn'⟩
      · obtain ⟨rfl, rfl⟩ := h1 _ _ _ _ hd (same_declared hs' hd')
        rw [e, e']
      · exact absurd (same_declared hs hd) (hn' _ _)
    · rcases C102_search (same_usual hs hu) with ⟨pkg', v', e', hd'⟩ | ⟨e', hn'⟩
      · exact absurd (same_declared hs' hd') (hn _ _)
      · rw [e, e']
  subst hp'
  unfold GenCmd.main
  rw [hp]
  dsimp only
  rw [he]

/-! ### C104 -/

/-- **C104** (partial): tplgen works with the value of the literal it finds, if that is a raw
string or has no backslash. Missing: `C104_violated`. -/
theorem C104_value_partial {H : Host} {fuel : Nat} {ipt : Bool} {old : Option Str} {pkgs} {pkg v text : Str} (hp : H.parse = .ok pkgs)
    (hs : search name (visits pkgs) = .ok (some (pkg, v))) (hg : GoString v text) (hv : (∃ s, v = str "`" ++ s) ∨ 92 ∉ v) :
    GenCmd.main H fuel name ipt old = ends H fuel pkg ipt text :=
  main_ends hp hs (inner_plain hg hv)

/-! ### C105 -/

/-- **C105**: after a run that succeeds the output file has the code made of a literal found; after a run
that fails there is no file, or (if `output.tpl` cannot be used) an empty one. -/
theorem C105_fresh {H : Host} {fuel : Nat} {ipt : Bool} {old out : Option Str} {e : End} (h : GenCmd.main H fuel name ipt old = some (e, out)) :
    (e = .ok ∧ ∃ pkgs pkg v text code r, H.parse = .ok pkgs ∧ search name (visits pkgs) = .ok (some (pkg, v)) ∧ inner v = .ok text ∧
      genStaticCode H.uni H.orders fuel text = some (.ok code) ∧ H.render = .ok r ∧ out = some (r pkg ipt code)) ∨
    (e ≠ .ok ∧ (out = none ∨ out = some [] ∧ ∃ m, H.render = .error m)) := by
  unfold GenCmd.main at h
  cases h1 : H.parse with
  | error m => rw [h1] at h; cases h; exact .inr ⟨nofun, .inl rfl⟩
  | ok pkgs =>
    rw [h1] at h
    dsimp only at h
    cases h2 : search name (visits pkgs) with
    | error m => rw [h2] at h; cases h; exact .inr ⟨nofun, .inl rfl⟩
    | ok x =>
      rw [h2] at h
      cases x with
      | none => cases h; exact .inr ⟨nofun, .inl rfl⟩
      | some x =>
        obtain ⟨pkg, v⟩ := x
        dsimp only at h
        cases h3 : inner v with
        | error m => rw [h3] at h; cases h; exact .inr ⟨nofun, .inl rfl⟩
        | ok text =>
          rw [h3] at h
          dsimp only at h
          cases h4 : genStaticCode H.uni H.orders fuel text with
          | none => rw [h4] at h; cases h
          | some g =>
            rw [h4] at h
            cases g with
            | err _ => cases h; exact .inr ⟨nofun, .inl rfl⟩
            | noDoc => cases h; exact .inr ⟨nofun, .inl rfl⟩
            | panic _ => cases h; exact .inr ⟨nofun, .inl rfl⟩
            | ok code =>
              dsimp only at h
              cases h5 : H.openOut with
              | some m => rw [h5] at h; cases h; exact .inr ⟨nofun, .inl rfl⟩
              | none =>
                rw [h5] at h
                dsimp only at h
                cases h6 : H.render with
                | error m => rw [h6] at h; cases h; exact .inr ⟨nofun, .inr ⟨rfl, m, rfl⟩⟩
                | ok r =>
                  rw [h6] at h
                  cases h
                  exact .inl ⟨rfl, pkgs, pkg, v, text, code, r, rfl, h2, h3, h4, rfl, rfl⟩

/-! ### C106 -/

/-- **C106** (partial): tplgen does not crash if every function has a body, everything called `name`
has a value of its own, a literal found has two quotes, and `GenStaticCode` does not panic.
Missing: `C106_violated`, `C106_violated_body`, `C106_violated_short`. -/
theorem C106_crash_partial {H : Host} {fuel : Nat} {ipt : Bool} {old out : Option Str} {pkgs} {x : Crash} (hp : H.parse = .ok pkgs)
    (hu : Usual pkgs name) (hq : ∀ pkg v, Declared pkgs name pkg v → 2 ≤ v.length) (h : GenCmd.main H fuel name ipt old = some (.crash x, out)) :
    ∃ pkg v text p, Declared pkgs name pkg v ∧ inner v = .ok text ∧ genStaticCode H.uni H.orders fuel text = some (.panic p) ∧ x = .gen p := by
  unfold GenCmd.main at h
  rw [hp] at h
  dsimp only at h
  rcases C102_search hu with ⟨pkg, v, hs, hd⟩ | ⟨hs, hn⟩
  · rw [hs] at h
    dsimp only at h
    have hi : ∃ text, inner v = .ok text := by
      unfold inner
      rw [if_neg (by have := hq _ _ hd; omega)]
      exact ⟨_, rfl⟩
    obtain ⟨text, hi⟩ := hi
    rw [hi] at h
    dsimp only at h
    cases h4 : genStaticCode H.uni H.orders fuel text with
    | none => rw [h4] at h; cases h
    | some g =>
      rw [h4] at h
      cases g with
      | err _ => cases h
      | noDoc => cases h
      | panic p => cases h; exact ⟨pkg, v, text, p, hd, hi, h4, rfl⟩
      | ok code =>
        dsimp only at h
        split at h
        · cases h
        · split at h <;> cases h
  · rw [hs] at h
    cases h

/-! ### Examples, and what goes wrong -/

/-- The output is the name of the package and the code. -/
def genHost (pkgs : List (Str × List (List Decl))) : Host where
  uni := ascii
  orders := inOrder
  parse := .ok pkgs
  openOut := none
  render := .ok fun pkg _ code => str "package " ++ pkg ++ str "\n" ++ code

/-- `var n int; var grammar, m = "doc = INT", 1; func f()` and others. -/
def usualFiles : List (Str × List (List Decl)) :=
  [(str "main", [[.gen [.value [str "n"] [], .other], .func (some [.other, .assign [none, some (str "n")] [.other, .lit (str "1")]])],
    [.gen [.value [str "grammar", str "m"] [.lit (str "`doc = INT;`"), .lit (str "1")]]]])]

/-- The output of a run that succeeds. -/
def outOf (o : Option (End × Option Str)) : Option Str := match o with
  | some (.ok, out) => out
  | _ => none

example : outOf (GenCmd.main (genHost usualFiles) 60 (str "grammar") false none) =
    some (str "package main\n" ++ generated "doc = INT;") := by kernel_rfl

example : within (bytes "doc.Assign(\"doc\", tpl.Gr(tpl.INT))") (generated "doc = INT;") = true := by decide +kernel

theorem usual_main {f : List Decl} (h : ∃ pkg files, (pkg, files) ∈ usualFiles ∧ f ∈ files) :
    f = [.gen [.value [str "n"] [], .other], .func (some [.other, .assign [none, some (str "n")] [.other, .lit (str "1")]])] ∨
    f = [.gen [.value [str "grammar", str "m"] [.lit (str "`doc = INT;`"), .lit (str "1")]]] := by
  obtain ⟨pkg, files, h, hf⟩ := h
  simp only [usualFiles, List.mem_cons, Prod.mk.injEq, List.not_mem_nil, or_false] at h
  obtain ⟨_, rfl⟩ := h
  simpa using hf

/-- The hypotheses of C102 are met. -/
example : Usual usualFiles (str "grammar") ∧ Declared usualFiles (str "grammar") (str "main") (str "`doc = INT;`") ∧
    GoString (str "`doc = INT;`") (str "doc = INT;") := by
  refine ⟨⟨fun pkg files h f hf d hd => ?_, fun v d ⟨pkg, files, f, h, hf, hd⟩ hi => ?_⟩, ⟨_, List.mem_cons_self .., _, List.mem_cons_of_mem _ (List.mem_cons_self ..), _, List.mem_cons_self ..,
    .top (.mk (i := 0) (List.mem_cons_self ..) rfl rfl)⟩, .raw (t := str "doc = INT;") (by decide)⟩
  · rcases usual_main ⟨pkg, files, h, hf⟩ with rfl | rfl
    · simp only [List.mem_cons, List.not_mem_nil, or_false] at hd
      rcases hd with rfl | rfl
      · refine .gen fun ns vs hm => ?_
        simp only [List.mem_cons, GSpec.value.injEq, List.not_mem_nil, or_false, reduceCtorEq] at hm
        obtain ⟨rfl, rfl⟩ := hm
        have : ∀ i : Nat, [str "n"][i]? ≠ some (str "grammar") := by
          intro i; match i with
          | 0 => decide
          | i + 1 => simp
        exact ⟨fun i hi => absurd hi (this i), fun i j hi => absurd hi (this i)⟩
      · refine .func (fun specs hm => by simp at hm) fun l r hm => ?_
        simp only [List.mem_cons, Stmt.assign.injEq, List.not_mem_nil, or_false, reduceCtorEq, false_or] at hm
        obtain ⟨rfl, rfl⟩ := hm
        have : ∀ i : Nat, [none, some (str "n")][i]? ≠ some (some (str "grammar")) := by
          intro i; match i with
          | 0 => decide
          | 1 => decide
          | i + 2 => simp
        exact ⟨fun i hi => absurd hi (this i), fun i j hi => absurd hi (this i)⟩
    · simp only [List.mem_cons, List.not_mem_nil, or_false] at hd
      subst hd
      refine .gen fun ns vs hm => ?_
      simp only [List.mem_cons, GSpec.value.injEq, List.not_mem_nil, or_false] at hm
      obtain ⟨rfl, rfl⟩ := hm
      have : ∀ i : Nat, [str "grammar", str "m"][i]? = some (str "grammar") → i = 0 := by
        intro i; match i with
        | 0 => intro _; rfl
        | 1 => intro h; revert h; decide
        | i + 2 => simp
      exact ⟨fun i hi => by rw [this i hi]; decide, fun i j hi hj => (this i hi).trans (this j hj).symm⟩
  · rcases usual_main ⟨pkg, files, h, hf⟩ with rfl | rfl
    · simp only [List.mem_cons, List.not_mem_nil, or_false] at hd
      rcases hd with rfl | rfl
      · rcases hi with ⟨hm, h1, h2⟩
        simp only [List.mem_cons, GSpec.value.injEq, List.not_mem_nil, or_false, reduceCtorEq] at hm
        obtain ⟨rfl, rfl⟩ := hm
        simp at h2
      · rcases hi with _ | ⟨hm, hs⟩ | ⟨hm, h1, h2⟩
        · simp at hm
        · rintro rfl
          simp only [List.mem_cons, Stmt.assign.injEq, List.not_mem_nil, or_false, reduceCtorEq, false_or] at hm
          obtain ⟨rfl, rfl⟩ := hm
          rename_i i
          match i, h2 with
          | 0, h2 => cases h2
          | 1, h2 => cases h2
          | i + 2, h2 => simp at h2
    · simp only [List.mem_cons, List.not_mem_nil, or_false] at hd
      subst hd
      rcases hi with ⟨hm, h1, h2⟩
      simp only [List.mem_cons, GSpec.value.injEq, List.not_mem_nil, or_false] at hm
      obtain ⟨rfl, rfl⟩ := hm
      rintro rfl
      rename_i i
      match i, h2 with
      | 0, h2 => cases h2
      | 1, h2 => cases h2
      | i + 2, h2 => simp at h2

/-- Two files that declare the grammar, say a program and its test. -/
def twoFiles : List (Str × List (List Decl)) :=
  [(str "main", [[.gen [.value [str "grammar"] [.lit (str "`doc = INT`")]]], [.func (some [.assign [some (str "grammar")] [.lit (str "`doc = IDENT`")]])]])]

/-- The same, visited in the other order. -/
def twoFiles' : List (Str × List (List Decl)) :=
  [(str "main", [[.func (some [.assign [some (str "grammar")] [.lit (str "`doc = IDENT`")]])], [.gen [.value [str "grammar"] [.lit (str "`doc = INT`")]]]])]

/-- **C103 does not hold**: which of two declarations is taken depends on the order in which Go
iterates over a map. -/
theorem C103_violated : SameFiles twoFiles twoFiles' ∧
    outOf (GenCmd.main (genHost twoFiles) 60 (str "grammar") false none) = some (str "package main\n" ++ generated "doc = INT") ∧
    outOf (GenCmd.main (genHost twoFiles') 60 (str "grammar") false none) = some (str "package main\n" ++ generated "doc = IDENT") ∧
    generated "doc = INT" ≠ generated "doc = IDENT" := by
  refine ⟨fun pkg f => ?_, by kernel_rfl, by kernel_rfl, by decide +kernel⟩
  unfold twoFiles twoFiles'
  simp only [List.mem_cons, Prod.mk.injEq, List.not_mem_nil, or_false, and_assoc, exists_and_left, exists_eq_left]
  constructor <;> rintro ⟨h1, h2 | h2⟩ <;> simp [h1, h2]

/-- `const grammar = "doc = INT\n"`. -/
def escapeFiles : List (Str × List (List Decl)) :=
  [(str "main", [[.gen [.value [str "grammar"] [.lit (str "\"doc = INT\\n\"")]]]])]

/-- What a run shows: 0 for success, 1 for an error, 2 for a crash. -/
def code (o : Option (End × Option Str)) : Option (Nat × Option Str) := o.map fun (e, out) => (match e with | .ok => 0 | .fail _ => 1 | .gen _ => 1 | .crash _ => 2, out)

/-- **C104 does not hold**: the escapes of the literal are not replaced: the grammar of
`const grammar = "doc = INT\n"` is refused although its value is a grammar. -/
theorem C104_violated : GoString (str "\"doc = INT\\n\"") (str "doc = INT\n") ∧
    code (GenCmd.main (genHost escapeFiles) 60 (str "grammar") false none) = some (1, none) ∧ generated "doc = INT\n" ≠ [] := by
  refine ⟨.quoted (s := str "doc = INT\\n") ?_, by kernel_rfl, by decide +kernel⟩
  iterate 9 (refine .plain (by decide) (by decide) (by decide) ?_)
  exact .newline .nil

/-- A failed run removes the old file. -/
example : code (GenCmd.main (genHost escapeFiles) 60 (str "grammar") false (some (str "old"))) = some (1, none) := by kernel_rfl

/-- **C106 does not hold**: a variable of this name without a value, or with the value of a
function that has several. -/
theorem C106_violated :
    code (GenCmd.main (genHost [(str "main", [[.gen [.value [str "grammar"] []]]])]) 60 (str "grammar") false none) = some (2, none) ∧
    code (GenCmd.main (genHost [(str "main", [[.func (some [.assign [none, some (str "grammar")] [.other]])]])]) 60 (str "grammar") false none) = some (2, none) :=
  ⟨rfl, rfl⟩

/-- A function without a body, as those written in assembly. -/
theorem C106_violated_body :
    code (GenCmd.main (genHost [(str "main", [[.func none], [.gen [.value [str "grammar"] [.lit (str "`doc = INT`")]]]])]) 60 (str "grammar") false none) =
      some (2, none) := rfl

/-- A number with one digit: `[1:0]`. -/
theorem C106_violated_short :
    code (GenCmd.main (genHost [(str "main", [[.gen [.value [str "grammar"] [.lit (str "1")]]]])]) 60 (str "grammar") false none) = some (2, none) := rfl

end Tpl.Props
