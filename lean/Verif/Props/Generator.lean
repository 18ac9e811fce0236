import Verif.Proof.GeneratorCode
import Verif.Proof.CalcGrammar
import Verif.Props.Compiler

/-! Property C74: the static generator. -/
namespace Tpl.Props
open Tpl Tpl.Spec Tpl.Gen KwScanner
variable {B : Type} {U : Uni}

/-- C74 (partial): for a grammar text without `+`, strings and the name `true`, in which no
rule that is used before it is defined is used again afterwards, and whose names are names in
Go: if `Cl` compiles the text, `GenStaticCode` returns a program, whatever the order of the
iterations over its maps, and that program builds the tables of the compiled grammar.  Missing
are the texts that are not `Mild`; for them the generated code is wrong
(`C74_violated_repeat1`, `C74_violated_string`, `C74_violated_reference`). -/
theorem C74_builds_partial (c : Compiler B) (o : Orders) {ts : List Token} {eof : Token} {rs : List Rule}
    (ht : Tokenizes U KwScanner.zero c.grammar clMode ts eof) (hd : IsDoc ts rs) (hm : Mild rs)
    {fuel : Nat} {ret : CompileRet B} (h : c.cl U fuel KwScanner.zero = some (.ok ret)) :
    ∃ (fuel' : Nat) (P : GoProg), genStaticCode U o fuel' c.grammar = some (.ok P.text) ∧ P.Builds c.marker ret.tab := by
  obtain ⟨f1, h1⟩ := cl_doc (c := c) (.refl _) ht hd
  have he := cl_unique h1 h
  cases hden : denDoc c.marker rs (clStart B U KwScanner.zero c.grammar) with
  | error p => rw [hden] at he; cases he
  | ok T =>
    rw [hden] at he
    obtain ⟨root, hroot, hall, rfl⟩ := clFinish_ok he
    obtain ⟨τ, P, hG, hR⟩ := doc_codes rs [] (clStart B U KwScanner.zero c.grammar) T (genStart U c.grammar) ⟨[], []⟩
      hm.body (charsOk_doc (.refl _) ht hd) (fun pre r post he => hm.order pre r post he) (fun n hn => by simp [clStart, Tab.used] at hn)
      ⟨rfl, rfl, rfl, by simp [clStart], by simp, nofun, .nil⟩ nofun hden
    obtain ⟨f2, h2⟩ := gen_doc (o := o) ht hd
    rw [hG] at h2
    obtain ⟨qs, hqs, hmk⟩ := vars_all hR.vm hall
    -- the orders of the iterations
    obtain ⟨vs, hvp, hvs⟩ := perm_map (fun q : Str × GoExpr => (q.1, varText (q.1, some q.2))) (o.vars_perm τ.vars) qs (by
      rw [hR.va, hqs, List.map_map]; rfl)
    obtain ⟨ns, hnp, hns⟩ := perm_map (fun q : Str × GoExpr => (q.1, q.2.text)) (o.grammars_perm τ.grammars) P.named hR.gr
    have hdoc : ∃ s, τ.grammars.lookup (str "doc") = some s := by
      cases hl : τ.grammars.lookup (str "doc") with
      | some s => exact ⟨s, rfl⟩
      | none =>
        have := lookup_names.mp hl
        rw [hR.gr, List.map_map] at this
        exact absurd ((hR.gn (str "doc")).mpr (lookup_some hroot)) this
    obtain ⟨s, hs⟩ := hdoc
    refine ⟨f2, ⟨vs, ns⟩, ?_, ?_⟩
    · rw [h2]
      unfold genFinish
      dsimp only
      rw [hs]
      dsimp only
      rw [hvs, hns, emit_text]
    · have hlook : ∀ n e, P.named.lookup n = some e → ns.lookup n = some e := by
        intro n e hl
        have hmem := hnp.mem_iff.mpr (lookup_mem hl)
        cases hl2 : ns.lookup n with
        | none => exact absurd (List.mem_map.mpr ⟨(n, e), hmem, rfl⟩) (lookup_names.mp hl2)
        | some e' =>
          have h3 := hnp.mem_iff.mp (lookup_mem hl2)
          have := nodup_fst hR.gd h3 (lookup_mem hl)
          rw [this]
      have hmono : ∀ {e : GoExpr} {g : Gr B}, Makes c.marker (P.named.lookup ·) (varNo · T.vars) e g →
          Makes c.marker (ns.lookup ·) (varNo · T.vars) e g := fun h => makes_mono hlook (fun _ _ h => h) h
      have hqn : qs.map (·.1) = T.vars.map (·.1) := by
        rw [← hR.vm.names, hqs, List.map_map]; rfl
      have hap := doc_mono hden
      refine ⟨?_, ?_, ?_, ?_, ?_⟩
      · intro n
        rw [← hR.gn n]
        exact (hnp.map (·.1)).mem_iff
      · intro n
        rw [← hqn]
        exact (hvp.map (·.1)).mem_iff
      · rw [List.nodup_append]
        refine ⟨?_, ?_, ?_⟩
        · refine (hvp.map (·.1)).nodup_iff.mpr ?_
          rw [hqn]
          exact hap.nodup (by simp [clStart, Tab.used])
        · exact (hnp.map (·.1)).nodup_iff.mpr hR.gd
        · rintro a ha b hb rfl
          have ha' := (hvp.map (·.1)).mem_iff.mp ha
          rw [hqn] at ha'
          exact hap.apart (by simp [clStart, Tab.used]) a ha' ((hR.gn a).mp ((hnp.map (·.1)).mem_iff.mp hb))
      · intro n e he
        obtain ⟨g, h3, h4⟩ := hR.gm n e (hnp.mem_iff.mp he)
        exact ⟨g, h3, hmono h4⟩
      · intro n e he
        obtain ⟨g, h3, h4⟩ := hmk n e (hvp.mem_iff.mp he)
        exact ⟨g, h3, hmono h4⟩
where
  nodup_fst {α : Type} {l : List (Str × α)} (h : (l.map (·.1)).Nodup) {n : Str} {a b : α} (ha : (n, a) ∈ l) (hb : (n, b) ∈ l) : a = b := by
    induction l with
    | nil => cases ha
    | cons p l ih =>
      rw [List.map_cons, List.nodup_cons] at h
      cases ha with
      | head =>
        cases hb with
        | head => rfl
        | tail _ hb => exact absurd (List.mem_map.mpr ⟨_, hb, rfl⟩) h.1
      | tail _ ha =>
        cases hb with
        | head => exact absurd (List.mem_map.mpr ⟨_, ha, rfl⟩) h.1
        | tail _ hb => exact ih h.2 ha hb

/-! ### Texts the generator gets wrong -/

/-- The order of insertion. -/
def inOrder : Orders := ⟨id, id, fun _ => .refl _, fun _ => .refl _⟩

/-- The code for a text, with a new scanner. -/
def generated (src : String) : Str :=
  match genStaticCode ascii inOrder 60 (bytes src) with
  | some (.ok code) => code
  | _ => []

/-- The text contains this. -/
def within (x : Str) : Str → Bool
  | [] => x.isEmpty
  | c :: s => x.isPrefixOf (c :: s) || within x s

/-- `+G` gives `tpl.tpl.Repeat1(...)`, which is not Go for anything. -/
theorem C74_violated_repeat1 : ClRes.isOk (compiled "doc = +INT;") = true ∧
    within (bytes "doc.Assign(\"doc\", tpl.tpl.Repeat1(tpl.Gr(tpl.INT)))") (generated "doc = +INT;") = true := by decide +kernel

/-- An operator or a keyword in double quotes gives the grammar of any string literal. -/
theorem C74_violated_string : ClRes.isOk (compiled "doc = \"<<\" \"let\";") = true ∧
    within (bytes "doc.Assign(\"doc\", tpl.And(tpl.Gr(tpl.STRING),tpl.Gr(tpl.STRING)))") (generated "doc = \"<<\" \"let\";") = true := by
  decide +kernel

/-- A rule that is used before and after its definition: the second use repeats the call of
`Assign`, which returns an error and no grammar. -/
theorem C74_violated_reference : ClRes.isOk (compiled "a = x; x = INT; doc = x;") = true ∧
    within (bytes "doc.Assign(\"doc\", x.Assign(tpl.Gr(tpl.INT)))") (generated "a = x; x = INT; doc = x;") = true := by decide +kernel

/-! ### Examples -/

/-- `expr = '(' expr ')' | INT / x; doc = *IDENT % ',';` -/
def mildRules : List Rule :=
  [⟨bytes "t", .alt (.term (.char (bytes "'('")) .nil) (.cons (.term (.ident (bytes "e")) .nil) (.cons (.term (.char (bytes "')'")) .nil) .nil))
      (.one (.term (.ident (bytes "INT")) (.mark (bytes "push") .nil)) .nil)⟩,
   ⟨bytes "e", .one (.term (.ident (bytes "t")) (.list (.char (bytes "'+'")) .nil)) .nil⟩,
   ⟨bytes "doc", .one (.term (.rep0 (.ident (bytes "t"))) .nil) .nil⟩]

def mildText : String := "t = '(' e ')' | INT/push; e = t % '+'; doc = *t;"

example : (KwScanner.zero.tokenize ascii (bytes mildText) clMode).1.1.map key = flatDoc mildRules := by decide +kernel
example : ClRes.isOk (compiled mildText) = true := by decide +kernel

example : Mild mildRules where
  body := by decide
  order := by
    intro pre r post h hr
    match pre, h with
    | [], h => cases h; revert hr; decide
    | [_], h => cases h; revert hr; decide
    | [_, _], h => cases h; revert hr; decide
    | _ :: _ :: _ :: pre, h => simp [mildRules] at h
  names := by
    intro n h
    have : n ∈ [bytes "t", bytes "e", bytes "doc"] := by
      rcases h with ⟨r, hr, rfl⟩ | h
      · revert r; decide
      · revert h; revert n; decide
    clear h; revert this; revert n; decide

example : within (bytes "// GrVar e\ne.Assign(tpl.List(t,tpl.Gr('+')))\n// GrNamed t\nt.Assign(\"t\", tpl.Or(tpl.And(tpl.Gr('('),e,tpl.Gr(')')),cmplr.Marker(tpl.Gr(tpl.INT),\"push\")))\n")
    (generated mildText) = true := by decide +kernel

end Tpl.Props
