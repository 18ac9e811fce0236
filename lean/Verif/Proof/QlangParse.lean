import Verif.Proof.QlangEvents

/-! Every program is read by the grammar of qlang. -/
namespace Tpl.Qlang.Src
open Spec

variable {env : Env Str}

theorem hd_tk {k : Nat} (t : Tk k) (more : List Token) : hd (t.tok :: more) = some k := congrArg some t.ok

theorem mem_tk {k : Nat} {ks : List (Option Nat)} (t : Tk k) (more : List Token) (h : some k ∈ ks) : hd (t.tok :: more) ∈ ks := by
  rw [hd_tk]
  exact h

theorem Rd.cast {g : Gr Str} {ts ts' : List Token} {l l' : Int} {e e' : List (Ev Str)} {rest : List Token} (h : Rd env g ts l e rest)
    (ht : ts = ts') (hl : l = l') (he : e = e') : Rd env g ts' l' e' rest := by
  subst ht hl he
  exact h

theorem Mn.cast {g : Gr Str} {ts ts' : List Token} {l l' : Int} {e e' : List (Ev Str)} {rest : List Token} (h : Mn env g ts l e rest)
    (ht : ts = ts') (hl : l = l') (he : e = e') : Mn env g ts' l' e' rest := by
  subst ht hl he
  exact h

/-- A statement that reads a tree. -/
def Reads (env : Env Str) : {c : Cat} → Tm c → List Token → Prop
  | .term l, t, rest => hd rest ∈ after l → Rd env (gTerm l) t.toks (-1) t.evs rest
  | .tail l, t, rest => l < 5 → hd rest ∈ after (l + 1) → ∃ k, Mn env (opG l (gTerm l)) t.toks k t.evs rest
  | .prim, t, rest => Rd env gPrim t.toks 4 t.evs rest
  | .atom, t, rest => Rd env gAtom t.toks (-1) t.evs rest
  | .atoms, t, rest => hd rest ∈ after 0 → ∃ k, Mn env gAtom t.toks k t.evs rest
  | .optExpr, t, rest => hd rest ∈ afterE →
      ((hd rest = some 123 → t.cnt ≠ 0) → ∀ id, Rd env (.rep01 id gExpr) t.toks t.cnt t.evs rest) ∧
      (hd rest = some 123 → ¬ Braced t.toks → ∀ id, Rd env (.rep01 id gOn) t.toks t.cnt t.evs rest)
  | .args, t, rest => AfterL rest → ∀ id, Rd env (.list id gExpr (.tok 44) true) t.toks t.cnt t.evs rest
  | .moreArgs, t, rest => AfterL rest → Mn env (.and [.tok 44, gExpr]) t.toks t.cnt t.evs rest
  | .pairs, t, rest => AfterL rest → ∀ id, Rd env (.list id gPair (.tok 44) true) t.toks t.cnt t.evs rest
  | .morePairs, t, rest => AfterL rest → Mn env (.and [.tok 44, gPair]) t.toks t.cnt t.evs rest
  | .stmt, t, rest => hd rest ∈ afterS → (hd rest = some 123 → ¬ t.Bare) → Rd env gS t.toks (-1) t.evs rest
  | .doc, t, rest => hd rest ∈ afterD → Rd env gDoc t.toks (-1) t.evs rest
  | .docTail, t, rest => hd rest ∈ afterD → ∃ k, Mn env gNext t.toks k t.evs rest
  | .optDoc, t, rest => hd rest ∈ afterD → ∀ id, Rd env (.rep01 id gDoc) t.toks t.cnt t.evs rest
  | .elifs, t, rest => hd rest ∈ some 187 :: after 0 → Mn env gElif t.toks t.cnt t.evs rest
  | .else_, t, rest => hd rest ∈ after 0 → ∀ id, Rd env (.rep01 id gElse) t.toks t.cnt t.evs rest
  | .cases, t, rest => hd rest ∈ K [179, 125] → Mn env gCase t.toks t.cnt t.evs rest
  | .default, t, rest => hd rest ∈ K [125] → Rd env (.rep01 12 gDefault) t.toks t.cnt t.evs rest
  | .parts, t, rest => hd rest ∈ K [123] → Rd env (.list 31 (A "_code" gPart) (.tok 59) true) t.toks t.cnt t.evs rest
  | .moreParts, t, rest => hd rest ∈ K [123] → Mn env (.and [.tok 59, A "_code" gPart]) t.toks t.cnt t.evs rest
  | .fnBody, t, rest => Rd env gFn t.toks (-1) t.evs rest
  | .methods, t, rest => hd rest ∈ K [125] → Mn env gMethod t.toks t.cnt t.evs rest
  | .clsName, t, rest => Rd env gCls t.toks (-1) t.evs rest
  | .newArgs, t, rest => hd rest ∈ after 0 → Rd env gNew t.toks (-1) t.evs rest

/-! ### What follows the parts -/

theorem after_succ (l : Nat) : after (l + 1) ⊆ after l := by
  match l with
  | 0 | 1 | 2 | 3 | 4 => decide
  | l + 5 => exact fun _ h => h

theorem op_after {l : Nat} (o : BOp l) : some o.kind ∈ after l := by cases o <;> decide

theorem after_tail {l : Nat} {rest : List Token} : ∀ b : Tm (.tail l), hd rest ∈ after (l + 1) → hd (b.toks ++ rest) ∈ after l
  | .noOp, h => after_succ l h
  | .bin o op _ _, _ => mem_tk op _ (op_after o)
  | .and op _ _, _ => mem_tk op _ (by decide)
  | .or op _ _, _ => mem_tk op _ (by decide)

theorem after_le (l : Nat) : afterE ⊆ after l := by
  match l with
  | 0 | 1 | 2 | 3 | 4 => decide
  | l + 5 => exact fun _ h => h

theorem afterL_E {rest : List Token} (h : AfterL rest) : hd rest ∈ afterE := by
  rcases h with h | h
  · exact (show K [41, 93, 125, 153] ⊆ afterE by decide) h
  · rw [h.1]; decide

theorem after_args {rest : List Token} : ∀ b : Tm .moreArgs, AfterL rest → hd (b.toks ++ rest) ∈ afterE
  | .lastArg, h => afterL_E h
  | .moreArgs c _ _, _ => mem_tk c _ (by decide)

theorem after_pairs {rest : List Token} : ∀ b : Tm .morePairs, AfterL rest → hd (b.toks ++ rest) ∈ afterE
  | .lastPair, h => afterL_E h
  | .morePairs c _ _ _ _, _ => mem_tk c _ (by decide)

theorem after_docTail {rest : List Token} : ∀ b : Tm .docTail, hd rest ∈ afterD → hd (b.toks ++ rest) ∈ none :: K [125, 178, 179, 59]
  | .endDoc, h => (show afterD ⊆ none :: K [125, 178, 179, 59] by decide) h
  | .next c _ _, _ => mem_tk c _ (by decide)
  | .semi c _, _ => mem_tk c _ (by decide)

theorem after_elifs {rest : List Token} : ∀ b : Tm .else_, hd rest ∈ after 0 → hd (b.toks ++ rest) ∈ some 187 :: after 0
  | .noElse, h => .tail _ h
  | .else_ kw _ _ _, _ => mem_tk kw _ (.head _)

theorem after_cases {rest : List Token} : ∀ b : Tm .default, hd rest ∈ K [125] → hd (b.toks ++ rest) ∈ K [179, 125]
  | .noDefault, h => .tail _ h
  | .default kw _ _, _ => mem_tk kw _ (.head _)

theorem after_case {rest : List Token} : ∀ b : Tm .cases, hd rest ∈ K [179, 125] → hd (b.toks ++ rest) ∈ afterD
  | .noCase, h => (show K [179, 125] ⊆ afterD by decide) h
  | .case kw _ _ _ _, _ => mem_tk kw _ (by decide)

theorem after_parts {rest : List Token} : ∀ b : Tm .moreParts, hd rest ∈ K [123] → hd (b.toks ++ rest) ∈ K [59, 123]
  | .lastPart, h => .tail _ h
  | .moreParts kw _ _, _ => mem_tk kw _ (.head _)

/-- A list is followed by an optional comma and a closing bracket. -/
theorem afterL_close {k : Nat} (rb : Tk k) (hk : k ∈ [41, 93, 125]) (comma : Option (Tk COMMA)) (rest : List Token) :
    AfterL (optTok comma ++ (rb.tok :: rest)) := by
  cases comma with
  | none => exact .inl (mem_tk rb _ (by simp only [List.mem_cons, List.not_mem_nil, or_false] at hk; rcases hk with rfl | rfl | rfl <;> decide))
  | some c => exact .inr ⟨hd_tk c _, mem_tk rb _ (by simp only [List.mem_cons, List.not_mem_nil, or_false] at hk; rcases hk with rfl | rfl | rfl <;> decide)⟩

/-! ### The pieces -/

theorem rd_optTok {k : Nat} (s : Option (Tk k)) {rest : List Token} (id : Nat) (h : Rj env (.tok k) rest) :
    Rd env (.rep01 id (.tok k)) (optTok s) (optCnt s) [] rest := by
  cases s with
  | none => exact .optNone h
  | some t => exact .opt (.tok t.ok)

theorem rd_expr {e : Tm (.term 5)} {rest : List Token} (h : Reads env e rest) (hr : hd rest ∈ afterE) :
    Rd env gExpr e.toks (-1) e.evs rest := h hr

theorem rd_if {b : Tm .optDoc} {lb : Tk LBRACE} {rb : Tk RBRACE} {rest : List Token}
    (h : ∀ rest, Reads env b rest) : Rd env gIf (lb.tok :: (b.toks ++ [rb.tok])) (-1) (b.evs ++ [evCode (.rep01 8 gDoc) b.toks b.cnt]) rest := by
  have h1 := h ([rb.tok] ++ rest) (mem_tk rb _ (by decide)) 8
  have h2 : Sq env false [.tok 125] [rb.tok] [] rest := .tokLast rb.ok
  have h3 := Sq.cons (Rd.action (m := str "_code") h1) h2
  rw [List.append_nil] at h3
  exact .named (.and (.tok lb.ok h3))

/-- After the comma nothing that begins an expression follows. -/
theorem rj_comma (he : env 0 = some gFactor) {g : Gr Str} (hg : rejAll g (K [41, 93, 125]) = true) {rest : List Token} (h : AfterL rest) :
    Rj env (.and [.tok 44, g]) rest := by
  rcases h with h | ⟨h, h'⟩
  · exact rj_of he (ks := K [41, 93, 125, 153]) rfl h
  · match rest, h with
    | t :: rest, h =>
      obtain ⟨n, hn⟩ := rj_of he hg h'
      exact ⟨1 + n, .and (Tr.seqNext (g := .tok 44) (e := []) (o := .fail n) nofun (.tok (.inl (Option.some.inj h)))
        (.seqFail (by rintro rfl; cases hn) hn))⟩

/-! ### The token after a name -/

def inner : List Nat := [40, 46, 91, 42, 47, 37, 43, 45, 60, 62, 148, 150, 151, 149, 143, 144]

/-- If the first token is a name, another one in the tree is an operator or bracket. -/
def Second (ts : List Token) : Prop := ∀ x more, ts = x :: more → x.kind = 3 → more = [] ∨ hd more ∈ K inner

def Seconds : Cat → List Token → Prop
  | .term _, ts => Second ts
  | .prim, ts => Second ts
  | .tail _, ts => ts = [] ∨ hd ts ∈ K inner
  | .atoms, ts => ts = [] ∨ hd ts ∈ K inner
  | .atom, ts => hd ts ∈ K inner
  | _, _ => True

theorem Second.append {ts ts' : List Token} {ks : List Nat} (hb : Begins ks ts) (h : Second ts) (h' : ts' = [] ∨ hd ts' ∈ K inner) :
    Second (ts ++ ts') := by
  intro x more hx hk
  obtain ⟨t, ts, rfl, _⟩ := hb
  obtain ⟨rfl, rfl⟩ := List.cons.inj hx
  rcases h t ts rfl hk with rfl | h
  · exact h'
  · match ts, h with
    | y :: ts, h => exact .inr h

theorem Second.other {k : Nat} (t : Tk k) {more : List Token} (hk : k ≠ 3) : Second (t.tok :: more) := by
  intro x more' hx hx3
  obtain ⟨rfl, _⟩ := List.cons.inj hx
  exact absurd (t.ok.symm.trans hx3) hk

theorem seconds : ∀ {c : Cat} (t : Tm c), Seconds c t.toks := by
  intro c t
  induction t with
  | chain h a b iha ihb => exact Second.append (starts a) iha ihb
  | noOp => exact .inl rfl
  | bin o op => exact .inr (mem_tk op _ (by cases o <;> decide))
  | and op => exact .inr (mem_tk op _ (by decide))
  | or op => exact .inr (mem_tk op _ (by decide))
  | int t | float t | string t | char t => exact .other t (by decide)
  | post e ops ihe iho => exact Second.append (starts e) ihe iho
  | if_ kw | switch kw | for_ kw | new kw | class_ kw | recover kw | main kw | fn kw => exact .other kw (by decide)
  | map lb | slice lb => exact .other lb (by decide)
  | not op | neg op | pos op => exact .other op (by decide)
  | name x =>
    intro y more hx _
    exact .inl (List.cons.inj hx).2.symm
  | paren lp => exact .other lp (by decide)
  | noAtom => exact .inl rfl
  | atom a more iha _ =>
    refine .inr ?_
    simp only [Seconds, Tm.toks] at iha ⊢
    match a.toks, iha with
    | t :: ts, h => exact h
  | call lp => exact mem_tk lp _ (by decide)
  | member d => exact mem_tk d _ (by decide)
  | index lb => exact mem_tk lb _ (by decide)
  | range lb => exact mem_tk lb _ (by decide)
  | noIndex lb => exact mem_tk lb _ (by decide)
  | index2 lb => exact mem_tk lb _ (by decide)
  | _ => trivial

/-- If the body follows, there are no more parts. -/
theorem no_parts {rest : List Token} : ∀ b : Tm .moreParts, hd (b.toks ++ rest) = some 123 → b.toks = []
  | .lastPart, _ => rfl
  | .moreParts kw _ _, h => by rw [Tm.toks, List.cons_append, hd_tk] at h; cases h

/-- An expression statement is not an assignment. -/
theorem rj_assign (he : env 0 = some gFactor) (e : Tm (.term 5)) {rest : List Token} (hr : hd rest ∈ afterS) :
    ∀ x ∈ (match bS with
      | .or gs => gs.take 11
      | _ => []), Rj env x (e.toks ++ rest) := by
  have hb : Begins firstE e.toks := starts e
  have hsec : Second e.toks := seconds e
  intro x hx
  obtain ⟨t, more, ht, hk⟩ := hb
  rw [ht] at hsec ⊢
  by_cases h3 : t.kind = 3
  · have h2 : hd (more ++ rest) ∈ K inner ++ afterS := by
      rcases hsec t more rfl h3 with rfl | h
      · exact List.mem_append_right _ hr
      · match more, h with
        | y :: ys, h => exact List.mem_append_left _ h
    have hall : (List.all (K inner ++ afterS) fun k => List.all (match bS with
        | .or gs => gs.take 11
        | _ => []) fun x => rej 60 x [some 3, k]) = true := by kernel_rfl
    have := List.all_eq_true.1 (List.all_eq_true.1 hall _ h2) x hx
    exact (rejs he 60).1 x [some 3, hd (more ++ rest)] _ ⟨t, more ++ rest, rfl, h3, sees_hd _⟩ this
  · have hk' : t.kind ∈ firstE.filter (· ≠ 3) := by simp [List.mem_filter, hk, h3]
    have hall : (List.all (firstE.filter (· ≠ 3)) fun k => List.all (match bS with
        | .or gs => gs.take 11
        | _ => []) fun x => rej 60 x [some k]) = true := by kernel_rfl
    have := List.all_eq_true.1 (List.all_eq_true.1 hall _ hk') x hx
    exact (rejs he 60).1 x [some t.kind] _ ⟨t, more ++ rest, rfl, rfl, trivial⟩ this

end Tpl.Qlang.Src
