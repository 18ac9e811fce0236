import Verif.Proof.CompilerCl
import Verif.Model.Generator
import Verif.Spec.Generator

/-! What `GenStaticCode` does on the tokens of a syntax tree; and the code against the
grammar `Cl` builds. -/
namespace Tpl.Gen
open Tpl Tpl.Spec

theorem gen_plain : Plain genSem UserP genAct := by
  refine ⟨fun f m a g toks s => ?_⟩
  simp only [genSem]
  cases h : genAct a toks (g.len s.len) s.u with
  | ok u => rfl
  | error e => exact ⟨_, _, rfl, rfl⟩

theorem rejects_all {gs : List (Gr GenAct)} {ks : List Nat} {src : List Token} (h : Follows ks src)
    (hc : (ks.all fun k => gs.all fun g => rejB genEnv 9 g (some k)) = true) :
    ∀ g ∈ gs, Rejects genEnv genSem g src := by
  intro g hg
  obtain ⟨k, hk, he⟩ := h
  refine rejects_of (f := 9) ?_
  rw [he]
  exact List.all_eq_true.mp (List.all_eq_true.mp hc k hk) g hg

/-! ### The text of a tree -/

def tokenG (lit text : Str) (t : GTab) : Except GenPanic (Str × GTab) :=
  match t.scanner.ltot lit with
  | .ok (0, _) => .error (.illegal lit)
  | .ok (_, k) => .ok (text, { t with scanner := k })
  | .panic => .error .ltot

def nameG (name : Str) (t : GTab) : Except GenPanic (Str × GTab) :=
  if name = [] then .error .index
  else if isUpper name then tokenG name (call1 (str "tpl.Gr") (str "tpl." ++ name)) t
  else match t.grammars.lookup name, t.vars.lookup name with
    | some _, _ => .ok (name, t)
    | none, some s => .ok (s, t)
    | none, none =>
      if name = bytes "true" then .ok (str "tpl.GrTrue", { t with vars := putText name (str "tpl.GrTrue") t.vars })
      else .ok (name, { t with vars := putText name name t.vars })

/-- One item is not wrapped. -/
def oneOr (f : Str) : List Str → Str
  | [g] => g
  | gs => call1 f (joinComma gs)

end Tpl.Gen

namespace Tpl.Spec
open Tpl.Gen

mutual
def Fac.gen : Fac → GTab → Except GenPanic (Str × GTab)
  | .ident n, t => nameG n t
  | .char l, t => tokenG l (call1 (str "tpl.Gr") l) t
  | .string l, t => tokenG l (str "tpl.Gr(tpl.STRING)") t
  | .int l, t => if l = bytes "1" then .ok (str "tpl.GrTrue", t) else .error (.illegal l)
  | .rep0 f, t => (Fac.gen f t).bind fun x => .ok (call1 (str "tpl.Repeat0") x.1, x.2)
  | .rep1 f, t => (Fac.gen f t).bind fun x => .ok (call1 (str "tpl.tpl.Repeat1") x.1, x.2)
  | .rep01 f, t => (Fac.gen f t).bind fun x => .ok (call1 (str "tpl.Repeat01") x.1, x.2)
  | .not f, t => (Fac.gen f t).bind fun x => .ok (call1 (str "tpl.Not") x.1, x.2)
  | .peek f, t => (Fac.gen f t).bind fun x => .ok (call1 (str "tpl.Peek") x.1, x.2)
  | .paren g, t => (Alts.gen g t).bind fun x => .ok (oneOr (str "tpl.Or") x.1, x.2)
def Sufs.gen : Sufs → Str → GTab → Except GenPanic (Str × GTab)
  | .nil, a, t => .ok (a, t)
  | .list f r, a, t => (Fac.gen f t).bind fun x => Sufs.gen r (call1 (str "tpl.List") (a ++ str "," ++ x.1)) x.2
  | .list0 f r, a, t => (Fac.gen f t).bind fun x => Sufs.gen r (call1 (str "tpl.List0") (a ++ str "," ++ x.1)) x.2
  | .mark n r, a, t => Sufs.gen r (call1 (str "cmplr.Marker") (a ++ str ",\"" ++ n ++ str "\"")) t
def Item.gen : Item → GTab → Except GenPanic (Str × GTab)
  | .term f s, t => (Fac.gen f t).bind fun x => Sufs.gen s x.1 x.2
  | .cut, t => .ok (str "nil", t)
def ItemSeq.gen : ItemSeq → GTab → Except GenPanic (List Str × GTab)
  | .nil, t => .ok ([], t)
  | .cons i r, t => (Item.gen i t).bind fun x => (ItemSeq.gen r x.2).bind fun y => .ok (x.1 :: y.1, y.2)
def Alts.gen : Alts → GTab → Except GenPanic (List Str × GTab)
  | .one i is, t => (Item.gen i t).bind fun x => (ItemSeq.gen is x.2).bind fun y => .ok ([oneOr (str "tpl.And") (x.1 :: y.1)], y.2)
  | .alt i is r, t => (Item.gen i t).bind fun x => (ItemSeq.gen is x.2).bind fun y => (Alts.gen r y.2).bind fun z =>
      .ok (oneOr (str "tpl.And") (x.1 :: y.1) :: z.1, z.2)
end

end Tpl.Spec

namespace Tpl.Gen
open Tpl Tpl.Spec

def defineG (name g : Str) (t : GTab) : Except GenPanic GTab :=
  match t.vars.lookup name with
  | some _ => .ok { t with vars := putText name (call1 (name ++ str ".Assign") g) t.vars }
  | none =>
    match t.grammars.lookup name with
    | some _ => .error (.exists_ name)
    | none => .ok { t with grammars := putText name g t.grammars }

def _root_.Tpl.Spec.Rule.gen (r : Rule) (t : GTab) : Except GenPanic GTab :=
  (r.body.gen t).bind fun x => defineG r.name (oneOr (str "tpl.Or") x.1) x.2

def docG : List Rule → GTab → Except GenPanic GTab
  | [], t => .ok t
  | r :: rs, t => (r.gen t).bind fun t => docG rs t

/-! ### Reducing -/

theorem reduce_one {stk : List Str} {tab : GTab} {g : Str} {f : Str} :
    GenSt.reduce ⟨g :: stk, tab⟩ 1 f = .ok ⟨g :: stk, tab⟩ := if_pos rfl

theorem reduce_many {stk gs : List Str} {tab : GTab} {f : Str} {m : Nat} (hm : m = gs.length) (h2 : 2 ≤ m) :
    GenSt.reduce ⟨gs.reverse ++ stk, tab⟩ (m : Int) f = .ok ⟨call1 f (joinComma gs) :: stk, tab⟩ := by
  unfold GenSt.reduce
  rw [if_neg (by omega), if_pos ⟨by omega, by simp; omega⟩]
  have : ((m : Int).toNat) = gs.reverse.length := by simp [hm]
  simp only [this, List.take_left, List.drop_left, List.reverse_reverse]

theorem reduce_and {stk gs : List Str} {tab : GTab} {m : Nat} (hm : m = gs.length) (h1 : 1 ≤ m) :
    GenSt.reduce ⟨gs.reverse ++ stk, tab⟩ (m : Int) (str "tpl.And") = .ok ⟨oneOr (str "tpl.And") gs :: stk, tab⟩ := by
  match gs, hm with
  | [], hm => subst hm; cases h1
  | [g], hm => subst hm; exact reduce_one
  | g :: g' :: gs, hm => rw [reduce_many hm (by rw [hm]; simp)]; rfl

theorem reduce_or {stk gs : List Str} {tab : GTab} {m : Nat} (hm : m = gs.length) (h1 : 1 ≤ m) :
    GenSt.reduce ⟨gs.reverse ++ stk, tab⟩ (m : Int) (str "tpl.Or") = .ok ⟨oneOr (str "tpl.Or") gs :: stk, tab⟩ := by
  match gs, hm with
  | [], hm => subst hm; cases h1
  | [g], hm => subst hm; exact reduce_one
  | g :: g' :: gs, hm => rw [reduce_many hm (by rw [hm]; simp)]; rfl

/-! ### The actions against the meanings -/

theorem literal_tokenG (u : GenSt) (lit text : Str) :
    u.literal lit text = (tokenG lit text u.tab).map fun x => ⟨x.1 :: u.stk, x.2⟩ := by
  unfold GenSt.literal tokenG
  cases u.tab.scanner.ltot lit with
  | panic => rfl
  | ok x =>
    obtain ⟨tok, k⟩ := x
    cases tok with
    | zero => rfl
    | succ n => rfl

theorem ident_nameG (u : GenSt) (name : Str) :
    u.ident name = (nameG name u.tab).map fun x => ⟨x.1 :: u.stk, x.2⟩ := by
  unfold GenSt.ident nameG
  cases name with
  | nil => rfl
  | cons ch rest =>
    dsimp only
    rw [if_neg (show ¬ ch :: rest = [] by simp)]
    by_cases hu : 65 ≤ ch ∧ ch ≤ 90
    · rw [if_pos hu, if_pos (by simp [isUpper, hu]), literal_tokenG]
    · rw [if_neg hu, if_neg (show ¬ isUpper (ch :: rest) = true by simpa [isUpper] using hu)]
      cases u.tab.grammars.lookup (ch :: rest) with
      | some g => rfl
      | none =>
        cases u.tab.vars.lookup (ch :: rest) with
        | some v => rfl
        | none =>
          dsimp only
          rw [show str "true" = bytes "true" from rfl]
          by_cases ht : ch :: rest = bytes "true"
          · rw [if_pos ht, if_pos ht]; rfl
          · rw [if_neg ht, if_neg ht]; rfl

theorem assign_defineG (g : Str) (stk : List Str) (tab : GTab) (t : Token) (toks : List Token) :
    GenSt.assign ⟨g :: stk, tab⟩ (t :: toks) = (defineG t.lit g tab).map fun x => ⟨stk, x⟩ := by
  unfold GenSt.assign defineG
  dsimp only
  cases tab.vars.lookup t.lit with
  | some _ => rfl
  | none =>
    dsimp only
    cases tab.grammars.lookup t.lit <;> rfl

/-! ### Trees -/

def sufBody : Gr GenAct := .or [
    .and [.tok 37, .action .list genFactor],
    .and [.tok REM_ASSIGN, .action .list0 genFactor],
    .and [.tok 47, .action .mark (.tok IDENT)]]

def itemBody : Gr GenAct := .or [genTerm, .action .grNil (.tok 33)]

theorem items_den_len (is : ItemSeq) : ∀ (t : GTab) x, is.gen t = .ok x → x.1.length = is.len := by
  intro t x h
  match is with
  | .nil => cases h; rfl
  | .cons i r =>
    rw [ItemSeq.gen] at h
    cases hi : i.gen t with
    | error e => rw [hi] at h; cases h
    | ok y =>
      rw [hi] at h
      dsimp only [Except.bind] at h
      cases hr : r.gen y.2 with
      | error e => rw [hr] at h; cases h
      | ok z =>
        rw [hr] at h
        cases h
        simp [ItemSeq.len, items_den_len r _ _ hr]

theorem alts_den_len (a : Alts) : ∀ (t : GTab) x, a.gen t = .ok x → x.1.length = a.len := by
  intro t x h
  match a with
  | .one i is =>
    rw [Alts.gen] at h
    cases hi : i.gen t with
    | error e => rw [hi] at h; cases h
    | ok y =>
      rw [hi] at h
      dsimp only [Except.bind] at h
      cases hr : is.gen y.2 with
      | error e => rw [hr] at h; cases h
      | ok z => rw [hr] at h; cases h; rfl
  | .alt i is r =>
    rw [Alts.gen] at h
    cases hi : i.gen t with
    | error e => rw [hi] at h; cases h
    | ok y =>
      rw [hi] at h
      dsimp only [Except.bind] at h
      cases hr : is.gen y.2 with
      | error e => rw [hr] at h; cases h
      | ok z =>
        rw [hr] at h
        dsimp only at h
        cases ha : r.gen z.2 with
        | error e => rw [ha] at h; cases h
        | ok w => rw [ha] at h; cases h; simp [Alts.len, alts_den_len r _ _ ha]

/-- What a factor does. -/
def FacDoes (f : Fac) : Prop := ∀ toks rest u, toks.map key = f.flat →
  Does genEnv genSem UserP genFactor toks rest u ((f.gen u.tab).map fun x => ⟨x.1 :: u.stk, x.2⟩)

def GrammarDoes (a : Alts) : Prop := ∀ toks rest u, toks.map key = a.flat → Follows [41, 59] rest →
  Does genEnv genSem UserP genGrammar toks rest u ((a.gen u.tab).map fun x => ⟨oneOr (str "tpl.Or") x.1 :: u.stk, x.2⟩)

theorem does_cast {g : Gr GenAct} {toks rest u} {o o' : Except GenPanic GenSt} (h : Does genEnv genSem UserP g toks rest u o) (e : o = o') :
    Does genEnv genSem UserP g toks rest u o' := e ▸ h

theorem doesRep_cast {g : Gr GenAct} {toks rest u k} {o o' : Except GenPanic GenSt} (h : DoesRep genEnv genSem UserP g toks rest u k o)
    (e : o = o') : DoesRep genEnv genSem UserP g toks rest u k o' := e ▸ h

/-- One of the alternatives of `factor`. -/
theorem does_factor {pre post : List (Gr GenAct)} {g : Gr GenAct} {k : Nat} {t : Token} {toks rest u} {o : Except GenPanic GenSt}
    (he : genEnv 0 = some (.or (pre ++ g :: post))) (ht : t.kind = k)
    (hc : (pre.all fun g => rejB genEnv 9 g (some k)) = true) (h : Does genEnv genSem UserP g (t :: toks) rest u o) :
    Does genEnv genSem UserP genFactor (t :: toks) rest u o := by
  refine does_var he (does_or ?_ h)
  refine rejects_all (ks := [k]) ⟨k, .head _, by simp [ht]⟩ ?_
  simpa using hc

/-- A leaf of the syntax. -/
theorem fac_leaf {pre post : List (Gr GenAct)} {a : GenAct} {k : Nat} {t : Token} {rest} {u : GenSt}
    (he : genEnv 0 = some (.or (pre ++ .action a (.tok k) :: post))) (ht : t.kind = k)
    (hc : (pre.all fun g => rejB genEnv 9 g (some k)) = true) {f : GenSt → Except GenPanic GenSt}
    (hf : ∀ l u, genAct a [t] l u = f u) :
    Does genEnv genSem UserP genFactor [t] rest u (f u) :=
  does_factor he ht hc (does_action (o := .ok u) gen_plain hf (does_tok (.inl ht)))

/-- A prefix operator. -/
theorem fac_prefix {pre post : List (Gr GenAct)} {a : GenAct} {k : Nat} {t : Token} {toks rest} {u : GenSt} {f : Fac}
    (ih : FacDoes f)
    (he : genEnv 0 = some (.or (pre ++ .and [.tok k, .action a genFactor] :: post))) (ht : t.kind = k)
    (hc : (pre.all fun g => rejB genEnv 9 g (some k)) = true) {act : GenSt → Except GenPanic GenSt}
    (hf : ∀ l u, genAct a toks l u = act u) (htoks : toks.map key = f.flat) :
    Does genEnv genSem UserP genFactor (t :: toks) rest u
      (((f.gen u.tab).map fun x => (⟨x.1 :: u.stk, x.2⟩ : GenSt)).bind act) :=
  does_factor he ht hc (does_and (doesAll_tok (.inl ht) (doesAll_one (by intro h; cases h)
    (does_action gen_plain hf (ih toks rest u htoks)))))

def ItemDoes (i : Item) : Prop := ∀ toks rest u, toks.map key = i.flat → Follows followItem rest →
  Does genEnv genSem UserP itemBody toks rest u ((i.gen u.tab).map fun x => ⟨x.1 :: u.stk, x.2⟩)

def ItemsDoes (is : ItemSeq) : Prop := ∀ toks rest u, toks.map key = is.flat → Follows followItems rest →
  DoesRep genEnv genSem UserP itemBody toks rest u is.len ((is.gen u.tab).map fun x => ⟨x.1.reverse ++ u.stk, x.2⟩)

/-- An alternative. -/
theorem expr_does {i : Item} {is : ItemSeq} (hi : ItemDoes i) (his : ItemsDoes is) : ∀ toks rest u, toks.map key = i.flat ++ is.flat → Follows followItems rest →
    Does genEnv genSem UserP genExpr toks rest u (((i.gen u.tab).bind fun x => (is.gen x.2).bind fun y =>
      .ok (oneOr (str "tpl.And") (x.1 :: y.1), y.2)).map fun x => ⟨x.1 :: u.stk, x.2⟩) := by
  intro toks rest u h hf
  obtain ⟨t1, t2, rfl, ht1, ht2⟩ := List.map_eq_append_iff.mp h
  have hf' : Follows followItem (t2 ++ rest) := by
    match is with
    | .nil =>
      cases t2 with
      | nil => exact follows_mono hf (by decide)
      | cons t ts => cases ht2
    | .cons i' r' =>
      obtain ⟨x, xs, hx, hm⟩ := item_first i'
      rw [ItemSeq.flat, hx] at ht2
      exact follows_of_key ht2 hm
  have h1 := hi t1 (t2 ++ rest) u ht1 hf'
  cases hd : i.gen u.tab with
  | error e =>
    rw [hd] at h1
    exact (doesL_action gen_plain (doesL_rep1 (k := 0) h1 (o2 := .ok) nofun)).does
  | ok x =>
    rw [hd] at h1
    have h2 := his t2 rest ⟨x.1 :: u.stk, x.2⟩ ht2 hf
    have := (doesL_action (a := .and) gen_plain (doesL_rep1 (id := 1) h1 (o2 := fun _ => _) (fun u1 e => by cases e; exact h2))).does
    refine does_cast this ?_
    dsimp only [Except.bind, Except.map]
    cases hs : is.gen x.2 with
    | error e => rfl
    | ok y =>
      dsimp only [genAct]
      have := reduce_and (gs := x.1 :: y.1) (stk := u.stk) (tab := y.2) (m := is.len + 1)
        (by simp [items_den_len is _ _ hs]) (by omega)
      simpa using this

mutual
theorem fac_does (f : Fac) : FacDoes f := by
  intro toks rest u h
  match f with
  | .ident n =>
    obtain ⟨t, rfl, ht⟩ := map_key_one h
    obtain ⟨hk, rfl⟩ := key_lit (by decide) ht
    rw [Fac.gen, ← ident_nameG]
    exact fac_leaf (pre := []) rfl hk rfl (fun _ _ => rfl)
  | .char l =>
    obtain ⟨t, rfl, ht⟩ := map_key_one h
    obtain ⟨hk, rfl⟩ := key_lit (by decide) ht
    rw [Fac.gen, ← literal_tokenG]
    exact fac_leaf (pre := [_]) rfl hk rfl (fun _ _ => rfl)
  | .string l =>
    obtain ⟨t, rfl, ht⟩ := map_key_one h
    obtain ⟨hk, rfl⟩ := key_lit (by decide) ht
    rw [Fac.gen, ← literal_tokenG]
    exact fac_leaf (pre := [_, _]) rfl hk rfl (fun _ _ => rfl)
  | .int l =>
    obtain ⟨t, rfl, ht⟩ := map_key_one h
    obtain ⟨hk, rfl⟩ := key_lit (by decide) ht
    refine does_cast (fac_leaf (pre := [_, _, _]) (a := .grTrue) rfl hk rfl (fun _ _ => rfl)) ?_
    rw [Fac.gen]
    dsimp only [genAct]
    by_cases hl : t.lit = bytes "1"
    · rw [if_pos hl]; exact if_neg (fun e => e hl)
    · rw [if_neg hl]; exact if_pos hl
  | .rep0 f =>
    obtain ⟨t, ts, rfl, ht, hts⟩ := map_key_cons h
    refine does_cast (fac_prefix (pre := [_, _, _, _]) (fac_does f) rfl (key_opr ht) rfl (fun _ _ => rfl) hts) ?_
    rw [Fac.gen]
    cases f.gen u.tab <;> rfl
  | .rep1 f =>
    obtain ⟨t, ts, rfl, ht, hts⟩ := map_key_cons h
    refine does_cast (fac_prefix (pre := [_, _, _, _, _]) (fac_does f) rfl (key_opr ht) rfl (fun _ _ => rfl) hts) ?_
    rw [Fac.gen]
    cases f.gen u.tab <;> rfl
  | .rep01 f =>
    obtain ⟨t, ts, rfl, ht, hts⟩ := map_key_cons h
    refine does_cast (fac_prefix (pre := [_, _, _, _, _, _]) (fac_does f) rfl (key_opr ht) rfl (fun _ _ => rfl) hts) ?_
    rw [Fac.gen]
    cases f.gen u.tab <;> rfl
  | .not f =>
    obtain ⟨t, ts, rfl, ht, hts⟩ := map_key_cons h
    refine does_cast (fac_prefix (pre := [_, _, _, _, _, _, _]) (fac_does f) rfl (key_opr ht) rfl (fun _ _ => rfl) hts) ?_
    rw [Fac.gen]
    cases f.gen u.tab <;> rfl
  | .peek f =>
    obtain ⟨t, ts, rfl, ht, hts⟩ := map_key_cons h
    refine does_cast (fac_prefix (pre := [_, _, _, _, _, _, _, _]) (fac_does f) rfl (key_opr ht) rfl (fun _ _ => rfl) hts) ?_
    rw [Fac.gen]
    cases f.gen u.tab <;> rfl
  | .paren g =>
    obtain ⟨t, ts, rfl, ht, hts⟩ := map_key_cons h
    obtain ⟨t1, t2, rfl, ht1, ht2⟩ := List.map_eq_append_iff.mp hts
    obtain ⟨t3, rfl, ht3⟩ := map_key_one ht2
    refine does_factor (pre := [_, _, _, _, _, _, _, _, _]) rfl (key_opr ht) rfl (does_and (doesAll_tok (.inl (key_opr ht)) ?_))
    have h1 := grammar_does g t1 ([t3] ++ rest) u ht1 ⟨41, .head _, by simp [key_opr ht3]⟩
    have := doesAll_cons (t2 := [t3]) (rest := rest) (o2 := .ok) (by intro h; cases h) h1
      (fun u1 _ => doesAll_one (by intro h; cases h) (does_tok (k := 41) (.inl (key_opr ht3))))
    have e : (((g.gen u.tab).map fun x => (⟨oneOr (str "tpl.Or") x.1 :: u.stk, x.2⟩ : GenSt)).bind .ok) =
        ((Fac.paren g).gen u.tab).map fun x => ⟨x.1 :: u.stk, x.2⟩ := by
      rw [Fac.gen]
      cases g.gen u.tab <;> rfl
    rw [e] at this
    exact this

theorem sufs_does (s : Sufs) : ∀ toks rest a stk tab, toks.map key = s.flat → Follows followItem rest →
    ∃ k, DoesRep genEnv genSem UserP sufBody toks rest ⟨a :: stk, tab⟩ k ((s.gen a tab).map fun x => ⟨x.1 :: stk, x.2⟩) := by
  intro toks rest a stk tab h hf
  match s with
  | .nil =>
    cases toks with
    | nil => exact ⟨0, doesRep_stop (rejects_all (gs := [sufBody]) hf (by decide) _ (.head _))⟩
    | cons t ts => cases h
  | .list f r =>
    obtain ⟨t, ts, rfl, ht, hts⟩ := map_key_cons h
    obtain ⟨t1, t2, rfl, ht1, ht2⟩ := List.map_eq_append_iff.mp hts
    have h1 := does_action (a := .list) gen_plain (fun _ _ => rfl) (fac_does f t1 (t2 ++ rest) ⟨a :: stk, tab⟩ ht1)
    have h1 := does_or (pre := []) (post := [.and [.tok REM_ASSIGN, .action .list0 genFactor], .and [.tok 47, .action .mark (.tok IDENT)]])
      nofun (does_and (doesAll_tok (k := 37) (t := t) (.inl (key_opr ht)) (doesAll_one (by intro h; cases h) h1)))
    rw [Sufs.gen]
    cases hd : f.gen tab with
    | error e =>
      rw [hd] at h1
      exact ⟨_, doesRep_more (k := 0) h1 (o2 := .ok) nofun⟩
    | ok x =>
      rw [hd] at h1
      obtain ⟨k, h2⟩ := sufs_does r t2 rest (call1 (str "tpl.List") (a ++ str "," ++ x.1)) stk x.2 ht2 hf
      exact ⟨_, doesRep_more (t1 := t :: t1) h1 (o2 := fun _ => _) (fun u1 e => by cases e; exact h2)⟩
  | .list0 f r =>
    obtain ⟨t, ts, rfl, ht, hts⟩ := map_key_cons h
    obtain ⟨t1, t2, rfl, ht1, ht2⟩ := List.map_eq_append_iff.mp hts
    have h1 := does_action (a := .list0) gen_plain (fun _ _ => rfl) (fac_does f t1 (t2 ++ rest) ⟨a :: stk, tab⟩ ht1)
    have h1 := does_or (pre := [.and [.tok 37, .action .list genFactor]]) (post := [.and [.tok 47, .action .mark (.tok IDENT)]])
      (rejects_all (ks := [REM_ASSIGN]) ⟨REM_ASSIGN, .head _, by simp [key_opr ht]⟩ (by decide))
      (does_and (doesAll_tok (k := REM_ASSIGN) (t := t) (.inl (key_opr ht)) (doesAll_one (by intro h; cases h) h1)))
    rw [Sufs.gen]
    cases hd : f.gen tab with
    | error e =>
      rw [hd] at h1
      exact ⟨_, doesRep_more (k := 0) h1 (o2 := .ok) nofun⟩
    | ok x =>
      rw [hd] at h1
      obtain ⟨k, h2⟩ := sufs_does r t2 rest (call1 (str "tpl.List0") (a ++ str "," ++ x.1)) stk x.2 ht2 hf
      exact ⟨_, doesRep_more (t1 := t :: t1) h1 (o2 := fun _ => _) (fun u1 e => by cases e; exact h2)⟩
  | .mark n r =>
    obtain ⟨t, ts, rfl, ht, hts⟩ := map_key_cons h
    obtain ⟨t1, t2, rfl, ht1, ht2⟩ := map_key_cons hts
    obtain ⟨hk, rfl⟩ := key_lit (by decide) ht1
    have h1 := does_action (a := .mark) gen_plain (fun _ _ => rfl)
      (does_tok (env := genEnv) (sem := genSem) (k := IDENT) (t := t1) (rest := t2 ++ rest) (u := ⟨a :: stk, tab⟩) (.inl hk))
    have h1 := does_or (pre := [.and [.tok 37, .action .list genFactor], .and [.tok REM_ASSIGN, .action .list0 genFactor]]) (post := [])
      (rejects_all (ks := [47]) ⟨47, .head _, by simp [key_opr ht]⟩ (by decide))
      (does_and (doesAll_tok (k := 47) (t := t) (.inl (key_opr ht)) (doesAll_one (by intro h; cases h) h1)))
    rw [Sufs.gen]
    dsimp only [Except.bind, genAct, GenSt.mark] at h1
    obtain ⟨k, h2⟩ := sufs_does r t2 rest _ stk tab ht2 hf
    exact ⟨_, doesRep_more (t1 := [t, t1]) h1 (o2 := fun _ => _) (fun u1 e => by cases e; exact h2)⟩

theorem item_does (i : Item) : ItemDoes i := by
  intro toks rest u h hf
  match i with
  | .term f s =>
    obtain ⟨t1, t2, rfl, ht1, ht2⟩ := List.map_eq_append_iff.mp h
    have h1 := fac_does f t1 (t2 ++ rest) u ht1
    rw [Item.gen]
    refine does_or (pre := []) nofun (does_and ?_)
    cases hd : f.gen u.tab with
    | error e =>
      rw [hd] at h1
      exact doesAll_cons (by intro h; cases h) h1 (o2 := .ok) nofun
    | ok x =>
      rw [hd] at h1
      obtain ⟨k, h2⟩ := sufs_does s t2 rest x.1 u.stk x.2 ht2 hf
      exact doesAll_cons (by intro h; cases h) h1 (o2 := fun _ => _) (fun u1 e => by
        cases e
        exact doesAll_one (by intro h; cases h) (doesL_rep0 h2).does)
  | .cut =>
    obtain ⟨t, rfl, ht⟩ := map_key_one h
    refine does_or (pre := [genTerm]) (post := [])
      (rejects_all (ks := [33]) ⟨33, .head _, by simp [key_opr ht]⟩ (by decide)) ?_
    exact does_action (a := .grNil) (o := .ok u) gen_plain (fun _ _ => rfl) (does_tok (.inl (key_opr ht)))

theorem items_does (is : ItemSeq) : ItemsDoes is := by
  intro toks rest u h hf
  match is with
  | .nil =>
    cases toks with
    | nil => exact doesRep_stop (rejects_all (gs := [itemBody]) hf (by decide) _ (.head _))
    | cons t ts => cases h
  | .cons i r =>
    obtain ⟨t1, t2, rfl, ht1, ht2⟩ := List.map_eq_append_iff.mp h
    have hf' : Follows followItem (t2 ++ rest) := by
      match r with
      | .nil =>
        cases t2 with
        | nil => exact follows_mono hf (by decide)
        | cons t ts => cases ht2
      | .cons i' r' =>
        obtain ⟨x, xs, hx, hm⟩ := item_first i'
        rw [ItemSeq.flat, hx] at ht2
        exact follows_of_key ht2 hm
    have h1 := item_does i t1 (t2 ++ rest) u ht1 hf'
    rw [ItemSeq.gen]
    cases hd : i.gen u.tab with
    | error e =>
      rw [hd] at h1
      exact doesRep_more h1 (o2 := .ok) nofun
    | ok x =>
      rw [hd] at h1
      have h2 := items_does r t2 rest ⟨x.1 :: u.stk, x.2⟩ ht2 hf
      have := doesRep_more h1 (o2 := fun _ => _) (fun u1 e => by cases e; exact h2)
      have e : ((r.gen x.2).map fun y => (⟨y.1.reverse ++ x.1 :: u.stk, y.2⟩ : GenSt)) =
          ((r.gen x.2).bind fun y => .ok (x.1 :: y.1, y.2)).map fun x => ⟨x.1.reverse ++ u.stk, x.2⟩ := by
        cases r.gen x.2 with
        | error e => rfl
        | ok y => simp [Except.map, Except.bind]
      dsimp only [Except.bind, Except.map] at this e ⊢
      rw [e] at this
      exact this

/-- The alternatives behind a '|'. -/
theorem alts_does (a : Alts) : ∀ toks rest u, toks.map key = opr 124 :: a.flat → Follows [41, 59] rest →
    DoesRep genEnv genSem UserP (.and [.tok 124, genExpr]) toks rest u a.len
      ((a.gen u.tab).map fun x => ⟨x.1.reverse ++ u.stk, x.2⟩) := by
  intro toks rest u h hf
  obtain ⟨t, ts, rfl, ht, hts⟩ := map_key_cons h
  have hstop : Rejects genEnv genSem (.and [.tok 124, genExpr]) rest := rejects_all (gs := [_]) hf (by decide) _ (.head _)
  match a with
  | .one i is =>
    have h1 := expr_does (item_does i) (items_does is) ts rest u hts (follows_mono hf (by decide))
    have h1 := does_and (doesAll_tok (k := 124) (t := t) (.inl (key_opr ht)) (doesAll_one (by intro h; cases h) h1))
    have := doesRep_more (t1 := t :: ts) (t2 := []) (o2 := .ok) h1 (fun u1 _ => doesRep_stop hstop)
    rw [List.append_nil] at this
    refine doesRep_cast this ?_
    rw [Alts.gen]
    cases i.gen u.tab with
    | error e => rfl
    | ok x =>
      dsimp only [Except.bind, Except.map]
      cases is.gen x.2 <;> rfl
  | .alt i is r =>
    obtain ⟨t1, t2, rfl, ht1, ht2⟩ := List.map_eq_append_iff.mp hts
    have h1 := expr_does (item_does i) (items_does is) t1 (t2 ++ rest) u ht1 (follows_of_key ht2 (by decide))
    have h1 := does_and (doesAll_tok (k := 124) (t := t) (.inl (key_opr ht)) (doesAll_one (by intro h; cases h) h1))
    rw [Alts.gen]
    cases hi : i.gen u.tab with
    | error e => rw [hi] at h1; exact doesRep_more h1 (o2 := .ok) nofun
    | ok x =>
      rw [hi] at h1
      dsimp only [Except.bind, Except.map] at h1 ⊢
      cases hs : is.gen x.2 with
      | error e => rw [hs] at h1; exact doesRep_more h1 (o2 := .ok) nofun
      | ok y =>
        rw [hs] at h1
        have h2 := alts_does r t2 rest ⟨oneOr (str "tpl.And") (x.1 :: y.1) :: u.stk, y.2⟩ ht2 hf
        have := doesRep_more (t1 := t :: t1) h1 (o2 := fun _ => _) (fun u1 e => by cases e; exact h2)
        refine doesRep_cast this ?_
        dsimp only [Except.bind, Except.map]
        cases r.gen y.2 with
        | error e => rfl
        | ok z => simp

theorem grammar_does (a : Alts) : GrammarDoes a := by
  intro toks rest u h hf
  have hstop : Rejects genEnv genSem (.and [.tok 124, genExpr]) rest := rejects_all (gs := [_]) hf (by decide) _ (.head _)
  match a with
  | .one i is =>
    have h1 := expr_does (item_does i) (items_does is) toks rest u h (follows_mono hf (by decide))
    have := (doesL_action (a := .or) gen_plain (doesL_list (id := 2) (l0 := false) (t1 := toks) (t2 := []) (o2 := .ok) (b := .tok 124) h1
      (fun u1 _ => doesRep_stop hstop))).does
    rw [List.append_nil] at this
    refine does_cast this ?_
    rw [Alts.gen]
    cases i.gen u.tab with
    | error e => rfl
    | ok x =>
      dsimp only [Except.bind, Except.map]
      cases is.gen x.2 <;> rfl
  | .alt i is r =>
    obtain ⟨t1, t2, rfl, ht1, ht2⟩ := List.map_eq_append_iff.mp h
    have h1 := expr_does (item_does i) (items_does is) t1 (t2 ++ rest) u ht1 (follows_of_key ht2 (by decide))
    rw [Alts.gen]
    cases hi : i.gen u.tab with
    | error e => rw [hi] at h1; exact (doesL_action gen_plain (doesL_list (k := 0) h1 (o2 := .ok) nofun)).does
    | ok x =>
      rw [hi] at h1
      dsimp only [Except.bind, Except.map] at h1 ⊢
      cases hs : is.gen x.2 with
      | error e => rw [hs] at h1; exact (doesL_action gen_plain (doesL_list (k := 0) h1 (o2 := .ok) nofun)).does
      | ok y =>
        rw [hs] at h1
        have h2 := alts_does r t2 rest ⟨oneOr (str "tpl.And") (x.1 :: y.1) :: u.stk, y.2⟩ ht2 hf
        have := (doesL_action (a := .or) gen_plain (doesL_list (id := 2) (l0 := false) h1 (o2 := fun _ => _) (fun u1 e => by cases e; exact h2))).does
        refine does_cast this ?_
        dsimp only [Except.bind, Except.map]
        cases hr : r.gen y.2 with
        | error e => rfl
        | ok z =>
          dsimp only [genAct]
          have := reduce_or (gs := oneOr (str "tpl.And") (x.1 :: y.1) :: z.1) (stk := u.stk) (tab := z.2) (m := r.len + 1)
            (by simp [alts_den_len r _ _ hr]) (by omega)
          simpa using this
end

theorem doc_loop (rs : List Rule) : ∀ toks u, toks.map key = flatDoc rs →
    DoesRep genEnv genSem UserP (.action .assign (.and [.tok IDENT, .tok 61, genGrammar, .tok 59])) toks [] u rs.length
      ((docG rs u.tab).map fun t => ⟨u.stk, t⟩) := by
  induction rs with
  | nil =>
    intro toks u h
    cases toks with
    | nil => exact doesRep_stop (rejects_of (f := 9) rfl)
    | cons t ts => cases h
  | cons r rs ih =>
    intro toks u h
    obtain ⟨t1, t2, rfl, ht1, ht2⟩ := List.map_eq_append_iff.mp h
    have h1 := rule_does r t1 (t2 ++ []) u ht1
    rw [docG]
    cases hd : r.gen u.tab with
    | error e =>
      rw [hd] at h1
      exact doesRep_more h1 (o2 := .ok) nofun
    | ok x =>
      rw [hd] at h1
      have h2 := ih t2 ⟨u.stk, x⟩ ht2
      exact doesRep_more h1 (o2 := fun _ => _) (fun u1 e => by cases e; exact h2)
where
  rule_does (r : Rule) : ∀ toks rest u, toks.map key = r.flat →
      Does genEnv genSem UserP (.action .assign (.and [.tok IDENT, .tok 61, genGrammar, .tok 59])) toks rest u
        ((r.gen u.tab).map fun t => ⟨u.stk, t⟩) := by
    intro toks rest u h
    obtain ⟨t, ts, rfl, ht, hts⟩ := map_key_cons h
    obtain ⟨t', ts', rfl, ht', hts'⟩ := map_key_cons hts
    obtain ⟨t1, t2, rfl, ht1, ht2⟩ := List.map_eq_append_iff.mp hts'
    obtain ⟨t3, rfl, ht3⟩ := map_key_one ht2
    obtain ⟨hk, hl⟩ := key_lit (by decide) ht
    have h1 := grammar_does r.body t1 ([t3] ++ rest) u ht1 ⟨59, by decide, by simp [key_opr ht3]⟩
    have h2 := doesAll_cons (t2 := [t3]) (rest := rest) (o2 := .ok) (by intro h; cases h) h1
      (fun u1 _ => doesAll_one (by intro h; cases h) (does_tok (k := 59) (.inl (key_opr ht3))))
    have h3 := does_action (a := .assign) (f := fun u => GenSt.assign u (t :: t' :: (t1 ++ [t3]))) gen_plain (fun _ _ => rfl)
      (does_and (doesAll_tok (k := IDENT) (t := t) (.inl hk) (doesAll_tok (k := 61) (t := t') (.inl (key_opr ht')) h2)))
    refine does_cast h3 ?_
    unfold Rule.gen
    cases r.body.gen u.tab with
    | error e => rfl
    | ok x =>
      dsimp only [Except.bind, Except.map]
      rw [assign_defineG, hl]
      rfl

/-- What `doc` does on the tokens of a document. -/
theorem doc_does {rs : List Rule} {toks : List Token} (h : IsDoc toks rs) (u : GenSt) :
    Does genEnv genSem UserP genDoc toks [] u ((docG rs u.tab).map fun t => ⟨u.stk, t⟩) := by
  obtain ⟨hne, h⟩ := h
  cases rs with
  | nil => exact absurd rfl hne
  | cons r rs =>
    obtain ⟨t1, t2, rfl, ht1, ht2⟩ := List.map_eq_append_iff.mp h
    have h1 := doc_loop.rule_does r t1 (t2 ++ []) u ht1
    rw [docG]
    cases hd : r.gen u.tab with
    | error e =>
      rw [hd] at h1
      exact (doesL_rep1 (k := 0) h1 (o2 := .ok) nofun).does
    | ok x =>
      rw [hd] at h1
      have h2 := doc_loop rs t2 ⟨u.stk, x⟩ ht2
      exact (doesL_rep1 (id := 3) h1 (o2 := fun _ => _) (fun u1 e => by cases e; exact h2)).does


end Tpl.Gen
