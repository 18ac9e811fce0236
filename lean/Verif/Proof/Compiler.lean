import Verif.Proof.Does
import Verif.Spec.TplText

/-! What the matcher of `Cl` does on the tokens of a syntax tree. -/
namespace Tpl
open Spec
variable {B : Type} {mk : Marker B}

theorem cl_plain (mk : Marker B) : Plain (clSem mk) UserP (clAct mk) := by
  refine ⟨fun f m a g toks s => ?_⟩
  simp only [clSem]
  cases h : clAct mk a toks (g.len s.len) s.u with
  | ok u => rfl
  | error e => exact ⟨_, _, rfl, rfl⟩

/-- The next token is of one of these kinds. -/
def Follows (ks : List Nat) (src : List Token) : Prop := ∃ k ∈ ks, src.head?.map (·.kind) = some k

/-- kinds a factor begins with -/
def firstFac : List Nat := [IDENT, CHAR, STRING, INT, 42, 43, 63, 126, 64, 40]
/-- kinds that may follow an alternative -/
def followItems : List Nat := [124, 41, 59]
/-- kinds that may follow an item -/
def followItem : List Nat := firstFac ++ 33 :: followItems

theorem rejects_all {gs : List (Gr ClAct)} {ks : List Nat} {src : List Token} (h : Follows ks src)
    (hc : (ks.all fun k => gs.all fun g => rejB clEnv 9 g (some k)) = true) :
    ∀ g ∈ gs, Rejects clEnv (clSem mk) g src := by
  intro g hg
  obtain ⟨k, hk, he⟩ := h
  refine rejects_of (f := 9) ?_
  rw [he]
  exact List.all_eq_true.mp (List.all_eq_true.mp hc k hk) g hg

theorem key_opr {t : Token} {k : Nat} (h : key t = opr k) : t.kind = k := by
  unfold key opr at h
  injection h

theorem key_lit {t : Token} {k : Nat} {l : Str} (hk : k ∈ [IDENT, CHAR, STRING, INT]) (h : key t = (k, l)) :
    t.kind = k ∧ t.lit = l := by
  unfold key at h
  injection h with h1 h2
  rw [h1, if_pos hk] at h2
  exact ⟨h1, h2⟩

theorem map_key_cons {toks : List Token} {x : Nat × Str} {xs : List (Nat × Str)} (h : toks.map key = x :: xs) :
    ∃ t ts, toks = t :: ts ∧ key t = x ∧ ts.map key = xs := by
  cases toks with
  | nil => cases h
  | cons t ts => injection h with h1 h2; exact ⟨t, ts, rfl, h1, h2⟩

theorem map_key_one {toks : List Token} {x : Nat × Str} (h : toks.map key = [x]) : ∃ t, toks = [t] ∧ key t = x := by
  obtain ⟨t, ts, rfl, h1, h2⟩ := map_key_cons h
  cases ts with
  | nil => exact ⟨t, rfl, h1⟩
  | cons => cases h2

/-! ### First tokens -/

theorem fac_first (f : Fac) : ∃ x xs, f.flat = x :: xs ∧ x.1 ∈ firstFac := by
  cases f <;> exact ⟨_, _, rfl, by unfold firstFac; simp [opr]⟩

theorem follows_of_key {ks : List Nat} {toks rest : List Token} {x : Nat × Str} {xs} (h : toks.map key = x :: xs)
    (hx : x.1 ∈ ks) : Follows ks (toks ++ rest) := by
  obtain ⟨t, ts, rfl, h1, _⟩ := map_key_cons h
  refine ⟨x.1, hx, ?_⟩
  rw [← h1]
  rfl

theorem follows_mono {ks ks' : List Nat} {src : List Token} (h : Follows ks src) (hs : ∀ k ∈ ks, k ∈ ks') : Follows ks' src := by
  obtain ⟨k, hk, he⟩ := h
  exact ⟨k, hs k hk, he⟩

theorem item_first (i : Item) : ∃ x xs, i.flat = x :: xs ∧ x.1 ∈ followItem := by
  cases i with
  | term f s =>
    obtain ⟨x, xs, h, hx⟩ := fac_first f
    refine ⟨x, xs ++ s.flat, ?_, List.mem_append_left _ hx⟩
    rw [Item.flat, h]
    rfl
  | cut => exact ⟨opr 33, [], rfl, by decide⟩

/-! ### Reducing -/

theorem reduce_one {stk : List (Gr B)} {tab : Tab B} {g : Gr B} {f : List (Gr B) → Gr B} :
    ClSt.reduce ⟨g :: stk, tab⟩ 1 f = .ok ⟨g :: stk, tab⟩ := if_pos rfl

theorem reduce_many {stk gs : List (Gr B)} {tab : Tab B} {f : List (Gr B) → Gr B} {m : Nat} (hm : m = gs.length) (h2 : 2 ≤ m) :
    ClSt.reduce ⟨gs.reverse ++ stk, tab⟩ (m : Int) f = .ok ⟨f gs :: stk, tab⟩ := by
  unfold ClSt.reduce
  rw [if_neg (by omega), if_pos ⟨by omega, by simp; omega⟩]
  have : ((m : Int).toNat) = gs.reverse.length := by simp [hm]
  simp only [this, List.take_left, List.drop_left, List.reverse_reverse]

theorem reduce_and {stk gs : List (Gr B)} {tab : Tab B} {m : Nat} (hm : m = gs.length) (h1 : 1 ≤ m) :
    ClSt.reduce ⟨gs.reverse ++ stk, tab⟩ (m : Int) .and = .ok ⟨oneOrAnd gs :: stk, tab⟩ := by
  match gs, hm with
  | [], hm => subst hm; cases h1
  | [g], hm => subst hm; exact reduce_one
  | g :: g' :: gs, hm => rw [reduce_many hm (by rw [hm]; simp)]; rfl

theorem reduce_or {stk gs : List (Gr B)} {tab : Tab B} {m : Nat} (hm : m = gs.length) (h1 : 1 ≤ m) :
    ClSt.reduce ⟨gs.reverse ++ stk, tab⟩ (m : Int) .or = .ok ⟨oneOrOr gs :: stk, tab⟩ := by
  match gs, hm with
  | [], hm => subst hm; cases h1
  | [g], hm => subst hm; exact reduce_one
  | g :: g' :: gs, hm => rw [reduce_many hm (by rw [hm]; simp)]; rfl

/-! ### The actions against the meanings -/

theorem gr_tokenOf (u : ClSt B) (lit : Str) :
    u.gr lit = (tokenOf lit u.tab).map fun x => ⟨x.1 :: u.stk, x.2⟩ := by
  unfold ClSt.gr tokenOf
  cases u.tab.scanner.ltot lit with
  | panic => rfl
  | ok x =>
    obtain ⟨tok, k⟩ := x
    cases tok with
    | zero => rfl
    | succ n => rfl

theorem varNo_eq (name : Str) (vs : List (Str × Option (Gr B))) : varNo name vs = vs.findIdx? (·.1 = name) := by
  induction vs with
  | nil => rfl
  | cons v vs ih =>
    rw [varNo, List.findIdx?_cons, ih]
    by_cases h : v.1 = name
    · rw [if_pos h]; simp [h]
    · rw [if_neg h]; simp [h]

theorem ident_nameOf (u : ClSt B) (name : Str) :
    u.ident name = (nameOf name u.tab).map fun x => ⟨x.1 :: u.stk, x.2⟩ := by
  unfold ClSt.ident nameOf
  cases name with
  | nil => rfl
  | cons ch rest =>
    dsimp only
    rw [if_neg (show ¬ ch :: rest = [] by simp)]
    by_cases hu : 65 ≤ ch ∧ ch ≤ 90
    · rw [if_pos hu, if_pos (by simp [isUpper, hu]), gr_tokenOf]
    · rw [if_neg hu, if_neg (show ¬ isUpper (ch :: rest) = true by simpa [isUpper] using hu)]
      rw [varNo_eq]
      cases u.tab.grammars.lookup (ch :: rest) with
      | some g => rfl
      | none =>
        cases u.tab.vars.findIdx? (·.1 = ch :: rest) with
        | some v => rfl
        | none =>
          dsimp only
          rw [show str "true" = bytes "true" from rfl]
          by_cases ht : ch :: rest = bytes "true"
          · rw [if_pos ht, if_pos ht]; rfl
          · rw [if_neg ht, if_neg ht]; rfl

theorem assign_define (g : Gr B) (stk : List (Gr B)) (tab : Tab B) (t : Token) (toks : List Token) :
    ClSt.assign ⟨g :: stk, tab⟩ (t :: toks) = (define t.lit g tab).map fun x => ⟨stk, x⟩ := by
  unfold ClSt.assign define
  dsimp only
  rw [varNo_eq]
  cases hv : tab.vars.findIdx? (·.1 = t.lit) with
  | none =>
    dsimp only
    cases tab.grammars.lookup t.lit <;> rfl
  | some i =>
    dsimp only
    obtain ⟨hi, hn, _⟩ := List.findIdx?_eq_some_iff_getElem.mp hv
    have he : tab.vars[i]? = some tab.vars[i] := List.getElem?_eq_getElem hi
    have hn : tab.vars[i].1 = t.lit := by simpa using hn
    have henv : tab.env i = tab.vars[i].2 := by unfold Tab.env; rw [he]; rfl
    rw [henv, he]
    generalize hx : tab.vars[i] = x at *
    obtain ⟨n, e⟩ := x
    dsimp only at hn
    subst hn
    cases e with
    | some e => rfl
    | none =>
      cases g with
      | nil =>
        simp only [GrVar.assign, Except.map]
        have : tab.vars.set i (t.lit, none) = tab.vars := by rw [← hx]; simp
        rw [this]
      | _ => rfl

/-! ### Trees -/

def sufBody : Gr ClAct := .or [
    .and [.tok 37, .action .list clFactor],
    .and [.tok REM_ASSIGN, .action .list0 clFactor],
    .and [.tok 47, .action .mark (.tok IDENT)]]

def itemBody : Gr ClAct := .or [clTerm, .action .grNil (.tok 33)]

def Spec.ItemSeq.len : ItemSeq → Nat
  | .nil => 0
  | .cons _ r => r.len + 1

def Spec.Alts.len : Alts → Nat
  | .one _ _ => 1
  | .alt _ _ r => r.len + 1

theorem items_den_len (is : ItemSeq) : ∀ (t : Tab B) x, is.den mk t = .ok x → x.1.length = is.len := by
  intro t x h
  match is with
  | .nil => cases h; rfl
  | .cons i r =>
    rw [ItemSeq.den] at h
    cases hi : i.den mk t with
    | error e => rw [hi] at h; cases h
    | ok y =>
      rw [hi] at h
      dsimp only [Except.bind] at h
      cases hr : r.den mk y.2 with
      | error e => rw [hr] at h; cases h
      | ok z =>
        rw [hr] at h
        cases h
        simp [ItemSeq.len, items_den_len r _ _ hr]

theorem alts_den_len (a : Alts) : ∀ (t : Tab B) x, a.den mk t = .ok x → x.1.length = a.len := by
  intro t x h
  match a with
  | .one i is =>
    rw [Alts.den] at h
    cases hi : i.den mk t with
    | error e => rw [hi] at h; cases h
    | ok y =>
      rw [hi] at h
      dsimp only [Except.bind] at h
      cases hr : is.den mk y.2 with
      | error e => rw [hr] at h; cases h
      | ok z => rw [hr] at h; cases h; rfl
  | .alt i is r =>
    rw [Alts.den] at h
    cases hi : i.den mk t with
    | error e => rw [hi] at h; cases h
    | ok y =>
      rw [hi] at h
      dsimp only [Except.bind] at h
      cases hr : is.den mk y.2 with
      | error e => rw [hr] at h; cases h
      | ok z =>
        rw [hr] at h
        dsimp only at h
        cases ha : r.den mk z.2 with
        | error e => rw [ha] at h; cases h
        | ok w => rw [ha] at h; cases h; simp [Alts.len, alts_den_len r _ _ ha]

/-- What a factor does. -/
def FacDoes (mk : Marker B) (f : Fac) : Prop := ∀ toks rest u, toks.map key = f.flat →
  Does clEnv (clSem mk) UserP clFactor toks rest u ((f.den mk u.tab).map fun x => ⟨x.1 :: u.stk, x.2⟩)

def GrammarDoes (mk : Marker B) (a : Alts) : Prop := ∀ toks rest u, toks.map key = a.flat → Follows [41, 59] rest →
  Does clEnv (clSem mk) UserP clGrammar toks rest u ((a.den mk u.tab).map fun x => ⟨oneOrOr x.1 :: u.stk, x.2⟩)

theorem does_cast {g : Gr ClAct} {toks rest u} {o o' : Except ClPanic (ClSt B)} (h : Does clEnv (clSem mk) UserP g toks rest u o) (e : o = o') :
    Does clEnv (clSem mk) UserP g toks rest u o' := e ▸ h

theorem doesRep_cast {g : Gr ClAct} {toks rest u k} {o o' : Except ClPanic (ClSt B)} (h : DoesRep clEnv (clSem mk) UserP g toks rest u k o)
    (e : o = o') : DoesRep clEnv (clSem mk) UserP g toks rest u k o' := e ▸ h

/-- One of the alternatives of `factor`. -/
theorem does_factor {pre post : List (Gr ClAct)} {g : Gr ClAct} {k : Nat} {t : Token} {toks rest u} {o : Except ClPanic (ClSt B)}
    (he : clEnv 0 = some (.or (pre ++ g :: post))) (ht : t.kind = k)
    (hc : (pre.all fun g => rejB clEnv 9 g (some k)) = true) (h : Does clEnv (clSem mk) UserP g (t :: toks) rest u o) :
    Does clEnv (clSem mk) UserP clFactor (t :: toks) rest u o := by
  refine does_var he (does_or ?_ h)
  refine rejects_all (ks := [k]) ⟨k, .head _, by simp [ht]⟩ ?_
  simpa using hc

/-- A leaf of the syntax. -/
theorem fac_leaf {pre post : List (Gr ClAct)} {a : ClAct} {k : Nat} {t : Token} {rest} {u : ClSt B}
    (he : clEnv 0 = some (.or (pre ++ .action a (.tok k) :: post))) (ht : t.kind = k)
    (hc : (pre.all fun g => rejB clEnv 9 g (some k)) = true) {f : ClSt B → Except ClPanic (ClSt B)}
    (hf : ∀ l u, clAct mk a [t] l u = f u) :
    Does clEnv (clSem mk) UserP clFactor [t] rest u (f u) :=
  does_factor he ht hc (does_action (o := .ok u) (cl_plain mk) hf (does_tok (.inl ht)))

/-- A prefix operator. -/
theorem fac_prefix {pre post : List (Gr ClAct)} {a : ClAct} {k : Nat} {t : Token} {toks rest} {u : ClSt B} {f : Fac}
    (ih : FacDoes mk f)
    (he : clEnv 0 = some (.or (pre ++ .and [.tok k, .action a clFactor] :: post))) (ht : t.kind = k)
    (hc : (pre.all fun g => rejB clEnv 9 g (some k)) = true) {act : ClSt B → Except ClPanic (ClSt B)}
    (hf : ∀ l u, clAct mk a toks l u = act u) (htoks : toks.map key = f.flat) :
    Does clEnv (clSem mk) UserP clFactor (t :: toks) rest u
      (((f.den mk u.tab).map fun x => (⟨x.1 :: u.stk, x.2⟩ : ClSt B)).bind act) :=
  does_factor he ht hc (does_and (doesAll_tok (.inl ht) (doesAll_one (by intro h; cases h)
    (does_action (cl_plain mk) hf (ih toks rest u htoks)))))

def ItemDoes (mk : Marker B) (i : Item) : Prop := ∀ toks rest u, toks.map key = i.flat → Follows followItem rest →
  Does clEnv (clSem mk) UserP itemBody toks rest u ((i.den mk u.tab).map fun x => ⟨x.1 :: u.stk, x.2⟩)

def ItemsDoes (mk : Marker B) (is : ItemSeq) : Prop := ∀ toks rest u, toks.map key = is.flat → Follows followItems rest →
  DoesRep clEnv (clSem mk) UserP itemBody toks rest u is.len ((is.den mk u.tab).map fun x => ⟨x.1.reverse ++ u.stk, x.2⟩)

/-- An alternative. -/
theorem expr_does {i : Item} {is : ItemSeq} (hi : ItemDoes mk i) (his : ItemsDoes mk is) : ∀ toks rest u, toks.map key = i.flat ++ is.flat → Follows followItems rest →
    Does clEnv (clSem mk) UserP clExpr toks rest u (((i.den mk u.tab).bind fun x => (is.den mk x.2).bind fun y =>
      .ok (oneOrAnd (x.1 :: y.1), y.2)).map fun x => ⟨x.1 :: u.stk, x.2⟩) := by
  intro toks rest u h hf
  obtain ⟨t1, t2, rfl, ht1, ht2⟩ := List.map_eq_append_iff.mp h
  have hf' : Follows followItem (t2 ++ rest) := by
    match is with
    | .nil =>
      cases t2 with
      | nil => exact follows_mono hf (by decide)
      | cons t ts => cases ht2
    | .cons i' r' =>
      obtain ⟨x, xs, hx, hm⟩ := item_first i'
      rw [ItemSeq.flat, hx] at ht2
      exact follows_of_key ht2 hm
  have h1 := hi t1 (t2 ++ rest) u ht1 hf'
  cases hd : i.den mk u.tab with
  | error e =>
    rw [hd] at h1
    exact (doesL_action (cl_plain mk) (doesL_rep1 (k := 0) h1 (o2 := .ok) nofun)).does
  | ok x =>
    rw [hd] at h1
    have h2 := his t2 rest ⟨x.1 :: u.stk, x.2⟩ ht2 hf
    have := (doesL_action (a := .and) (cl_plain mk) (doesL_rep1 (id := 1) h1 (o2 := fun _ => _) (fun u1 e => by cases e; exact h2))).does
    refine does_cast this ?_
    dsimp only [Except.bind, Except.map]
    cases hs : is.den mk x.2 with
    | error e => rfl
    | ok y =>
      dsimp only [clAct]
      have := reduce_and (gs := x.1 :: y.1) (stk := u.stk) (tab := y.2) (m := is.len + 1)
        (by simp [items_den_len is _ _ hs]) (by omega)
      simpa using this

mutual
theorem fac_does (f : Fac) : FacDoes mk f := by
  intro toks rest u h
  match f with
  | .ident n =>
    obtain ⟨t, rfl, ht⟩ := map_key_one h
    obtain ⟨hk, rfl⟩ := key_lit (by decide) ht
    rw [Fac.den, ← ident_nameOf]
    exact fac_leaf (pre := []) rfl hk rfl (fun _ _ => rfl)
  | .char l =>
    obtain ⟨t, rfl, ht⟩ := map_key_one h
    obtain ⟨hk, rfl⟩ := key_lit (by decide) ht
    rw [Fac.den, ← gr_tokenOf]
    exact fac_leaf (pre := [_]) rfl hk rfl (fun _ _ => rfl)
  | .string l =>
    obtain ⟨t, rfl, ht⟩ := map_key_one h
    obtain ⟨hk, rfl⟩ := key_lit (by decide) ht
    rw [Fac.den, ← gr_tokenOf]
    exact fac_leaf (pre := [_, _]) rfl hk rfl (fun _ _ => rfl)
  | .int l =>
    obtain ⟨t, rfl, ht⟩ := map_key_one h
    obtain ⟨hk, rfl⟩ := key_lit (by decide) ht
    refine does_cast (fac_leaf (pre := [_, _, _]) (a := .grTrue) rfl hk rfl (fun _ _ => rfl)) ?_
    rw [Fac.den]
    dsimp only [clAct]
    by_cases hl : t.lit = bytes "1"
    · rw [if_pos hl]; exact if_neg (fun e => e hl)
    · rw [if_neg hl]; exact if_pos hl
  | .rep0 f =>
    obtain ⟨t, ts, rfl, ht, hts⟩ := map_key_cons h
    refine does_cast (fac_prefix (pre := [_, _, _, _]) (fac_does f) rfl (key_opr ht) rfl (fun _ _ => rfl) hts) ?_
    rw [Fac.den]
    cases f.den mk u.tab <;> rfl
  | .rep1 f =>
    obtain ⟨t, ts, rfl, ht, hts⟩ := map_key_cons h
    refine does_cast (fac_prefix (pre := [_, _, _, _, _]) (fac_does f) rfl (key_opr ht) rfl (fun _ _ => rfl) hts) ?_
    rw [Fac.den]
    cases f.den mk u.tab <;> rfl
  | .rep01 f =>
    obtain ⟨t, ts, rfl, ht, hts⟩ := map_key_cons h
    refine does_cast (fac_prefix (pre := [_, _, _, _, _, _]) (fac_does f) rfl (key_opr ht) rfl (fun _ _ => rfl) hts) ?_
    rw [Fac.den]
    cases f.den mk u.tab <;> rfl
  | .not f =>
    obtain ⟨t, ts, rfl, ht, hts⟩ := map_key_cons h
    refine does_cast (fac_prefix (pre := [_, _, _, _, _, _, _]) (fac_does f) rfl (key_opr ht) rfl (fun _ _ => rfl) hts) ?_
    rw [Fac.den]
    cases f.den mk u.tab <;> rfl
  | .peek f =>
    obtain ⟨t, ts, rfl, ht, hts⟩ := map_key_cons h
    refine does_cast (fac_prefix (pre := [_, _, _, _, _, _, _, _]) (fac_does f) rfl (key_opr ht) rfl (fun _ _ => rfl) hts) ?_
    rw [Fac.den]
    cases f.den mk u.tab <;> rfl
  | .paren g =>
    obtain ⟨t, ts, rfl, ht, hts⟩ := map_key_cons h
    obtain ⟨t1, t2, rfl, ht1, ht2⟩ := List.map_eq_append_iff.mp hts
    obtain ⟨t3, rfl, ht3⟩ := map_key_one ht2
    refine does_factor (pre := [_, _, _, _, _, _, _, _, _]) rfl (key_opr ht) rfl (does_and (doesAll_tok (.inl (key_opr ht)) ?_))
    have h1 := grammar_does g t1 ([t3] ++ rest) u ht1 ⟨41, .head _, by simp [key_opr ht3]⟩
    have := doesAll_cons (t2 := [t3]) (rest := rest) (o2 := .ok) (by intro h; cases h) h1
      (fun u1 _ => doesAll_one (by intro h; cases h) (does_tok (k := 41) (.inl (key_opr ht3))))
    have e : (((g.den mk u.tab).map fun x => (⟨oneOrOr x.1 :: u.stk, x.2⟩ : ClSt B)).bind .ok) =
        ((Fac.paren g).den mk u.tab).map fun x => ⟨x.1 :: u.stk, x.2⟩ := by
      rw [Fac.den]
      cases g.den mk u.tab <;> rfl
    rw [e] at this
    exact this

theorem sufs_does (s : Sufs) : ∀ toks rest a stk tab, toks.map key = s.flat → Follows followItem rest →
    ∃ k, DoesRep clEnv (clSem mk) UserP sufBody toks rest ⟨a :: stk, tab⟩ k ((s.den mk a tab).map fun x => ⟨x.1 :: stk, x.2⟩) := by
  intro toks rest a stk tab h hf
  match s with
  | .nil =>
    cases toks with
    | nil => exact ⟨0, doesRep_stop (rejects_all (gs := [sufBody]) hf (by decide) _ (.head _))⟩
    | cons t ts => cases h
  | .list f r =>
    obtain ⟨t, ts, rfl, ht, hts⟩ := map_key_cons h
    obtain ⟨t1, t2, rfl, ht1, ht2⟩ := List.map_eq_append_iff.mp hts
    have h1 := does_action (a := .list) (cl_plain mk) (fun _ _ => rfl) (fac_does f t1 (t2 ++ rest) ⟨a :: stk, tab⟩ ht1)
    have h1 := does_or (pre := []) (post := [.and [.tok REM_ASSIGN, .action .list0 clFactor], .and [.tok 47, .action .mark (.tok IDENT)]])
      nofun (does_and (doesAll_tok (k := 37) (t := t) (.inl (key_opr ht)) (doesAll_one (by intro h; cases h) h1)))
    rw [Sufs.den]
    cases hd : f.den mk tab with
    | error e =>
      rw [hd] at h1
      exact ⟨_, doesRep_more (k := 0) h1 (o2 := .ok) nofun⟩
    | ok x =>
      rw [hd] at h1
      obtain ⟨k, h2⟩ := sufs_does r t2 rest (.list x.2.cells a x.1 false) stk x.2.bump ht2 hf
      exact ⟨_, doesRep_more (t1 := t :: t1) h1 (o2 := fun _ => _) (fun u1 e => by cases e; exact h2)⟩
  | .list0 f r =>
    obtain ⟨t, ts, rfl, ht, hts⟩ := map_key_cons h
    obtain ⟨t1, t2, rfl, ht1, ht2⟩ := List.map_eq_append_iff.mp hts
    have h1 := does_action (a := .list0) (cl_plain mk) (fun _ _ => rfl) (fac_does f t1 (t2 ++ rest) ⟨a :: stk, tab⟩ ht1)
    have h1 := does_or (pre := [.and [.tok 37, .action .list clFactor]]) (post := [.and [.tok 47, .action .mark (.tok IDENT)]])
      (rejects_all (ks := [REM_ASSIGN]) ⟨REM_ASSIGN, .head _, by simp [key_opr ht]⟩ (by decide))
      (does_and (doesAll_tok (k := REM_ASSIGN) (t := t) (.inl (key_opr ht)) (doesAll_one (by intro h; cases h) h1)))
    rw [Sufs.den]
    cases hd : f.den mk tab with
    | error e =>
      rw [hd] at h1
      exact ⟨_, doesRep_more (k := 0) h1 (o2 := .ok) nofun⟩
    | ok x =>
      rw [hd] at h1
      obtain ⟨k, h2⟩ := sufs_does r t2 rest (.list x.2.cells a x.1 true) stk x.2.bump ht2 hf
      exact ⟨_, doesRep_more (t1 := t :: t1) h1 (o2 := fun _ => _) (fun u1 e => by cases e; exact h2)⟩
  | .mark n r =>
    obtain ⟨t, ts, rfl, ht, hts⟩ := map_key_cons h
    obtain ⟨t1, t2, rfl, ht1, ht2⟩ := map_key_cons hts
    obtain ⟨hk, rfl⟩ := key_lit (by decide) ht1
    have h1 := does_action (a := .mark) (cl_plain mk) (fun _ _ => rfl)
      (does_tok (env := clEnv) (sem := clSem mk) (k := IDENT) (t := t1) (rest := t2 ++ rest) (u := ⟨a :: stk, tab⟩) (.inl hk))
    have h1 := does_or (pre := [.and [.tok 37, .action .list clFactor], .and [.tok REM_ASSIGN, .action .list0 clFactor]]) (post := [])
      (rejects_all (ks := [47]) ⟨47, .head _, by simp [key_opr ht]⟩ (by decide))
      (does_and (doesAll_tok (k := 47) (t := t) (.inl (key_opr ht)) (doesAll_one (by intro h; cases h) h1)))
    rw [Sufs.den]
    dsimp only [Except.bind, clAct, ClSt.mark] at h1
    cases hd : mk a t1.lit with
    | error e =>
      rw [hd] at h1
      exact ⟨_, doesRep_more (k := 0) h1 (o2 := .ok) nofun⟩
    | ok x =>
      rw [hd] at h1
      obtain ⟨k, h2⟩ := sufs_does r t2 rest x stk tab ht2 hf
      exact ⟨_, doesRep_more (t1 := [t, t1]) h1 (o2 := fun _ => _) (fun u1 e => by cases e; exact h2)⟩

theorem item_does (i : Item) : ItemDoes mk i := by
  intro toks rest u h hf
  match i with
  | .term f s =>
    obtain ⟨t1, t2, rfl, ht1, ht2⟩ := List.map_eq_append_iff.mp h
    have h1 := fac_does f t1 (t2 ++ rest) u ht1
    rw [Item.den]
    refine does_or (pre := []) nofun (does_and ?_)
    cases hd : f.den mk u.tab with
    | error e =>
      rw [hd] at h1
      exact doesAll_cons (by intro h; cases h) h1 (o2 := .ok) nofun
    | ok x =>
      rw [hd] at h1
      obtain ⟨k, h2⟩ := sufs_does s t2 rest x.1 u.stk x.2 ht2 hf
      exact doesAll_cons (by intro h; cases h) h1 (o2 := fun _ => _) (fun u1 e => by
        cases e
        exact doesAll_one (by intro h; cases h) (doesL_rep0 h2).does)
  | .cut =>
    obtain ⟨t, rfl, ht⟩ := map_key_one h
    refine does_or (pre := [clTerm]) (post := [])
      (rejects_all (ks := [33]) ⟨33, .head _, by simp [key_opr ht]⟩ (by decide)) ?_
    exact does_action (a := .grNil) (o := .ok u) (cl_plain mk) (fun _ _ => rfl) (does_tok (.inl (key_opr ht)))

theorem items_does (is : ItemSeq) : ItemsDoes mk is := by
  intro toks rest u h hf
  match is with
  | .nil =>
    cases toks with
    | nil => exact doesRep_stop (rejects_all (gs := [itemBody]) hf (by decide) _ (.head _))
    | cons t ts => cases h
  | .cons i r =>
    obtain ⟨t1, t2, rfl, ht1, ht2⟩ := List.map_eq_append_iff.mp h
    have hf' : Follows followItem (t2 ++ rest) := by
      match r with
      | .nil =>
        cases t2 with
        | nil => exact follows_mono hf (by decide)
        | cons t ts => cases ht2
      | .cons i' r' =>
        obtain ⟨x, xs, hx, hm⟩ := item_first i'
        rw [ItemSeq.flat, hx] at ht2
        exact follows_of_key ht2 hm
    have h1 := item_does i t1 (t2 ++ rest) u ht1 hf'
    rw [ItemSeq.den]
    cases hd : i.den mk u.tab with
    | error e =>
      rw [hd] at h1
      exact doesRep_more h1 (o2 := .ok) nofun
    | ok x =>
      rw [hd] at h1
      have h2 := items_does r t2 rest ⟨x.1 :: u.stk, x.2⟩ ht2 hf
      have := doesRep_more h1 (o2 := fun _ => _) (fun u1 e => by cases e; exact h2)
      have e : ((r.den mk x.2).map fun y => (⟨y.1.reverse ++ x.1 :: u.stk, y.2⟩ : ClSt B)) =
          ((r.den mk x.2).bind fun y => .ok (x.1 :: y.1, y.2)).map fun x => ⟨x.1.reverse ++ u.stk, x.2⟩ := by
        cases r.den mk x.2 with
        | error e => rfl
        | ok y => simp [Except.map, Except.bind]
      dsimp only [Except.bind, Except.map] at this e ⊢
      rw [e] at this
      exact this

/-- The alternatives behind a '|'. -/
theorem alts_does (a : Alts) : ∀ toks rest u, toks.map key = opr 124 :: a.flat → Follows [41, 59] rest →
    DoesRep clEnv (clSem mk) UserP (.and [.tok 124, clExpr]) toks rest u a.len
      ((a.den mk u.tab).map fun x => ⟨x.1.reverse ++ u.stk, x.2⟩) := by
  intro toks rest u h hf
  obtain ⟨t, ts, rfl, ht, hts⟩ := map_key_cons h
  have hstop : Rejects clEnv (clSem mk) (.and [.tok 124, clExpr]) rest := rejects_all (gs := [_]) hf (by decide) _ (.head _)
  match a with
  | .one i is =>
    have h1 := expr_does (item_does i) (items_does is) ts rest u hts (follows_mono hf (by decide))
    have h1 := does_and (doesAll_tok (k := 124) (t := t) (.inl (key_opr ht)) (doesAll_one (by intro h; cases h) h1))
    have := doesRep_more (t1 := t :: ts) (t2 := []) (o2 := .ok) h1 (fun u1 _ => doesRep_stop hstop)
    rw [List.append_nil] at this
    refine doesRep_cast this ?_
    rw [Alts.den]
    cases i.den mk u.tab with
    | error e => rfl
    | ok x =>
      dsimp only [Except.bind, Except.map]
      cases is.den mk x.2 <;> rfl
  | .alt i is r =>
    obtain ⟨t1, t2, rfl, ht1, ht2⟩ := List.map_eq_append_iff.mp hts
    have h1 := expr_does (item_does i) (items_does is) t1 (t2 ++ rest) u ht1 (follows_of_key ht2 (by decide))
    have h1 := does_and (doesAll_tok (k := 124) (t := t) (.inl (key_opr ht)) (doesAll_one (by intro h; cases h) h1))
    rw [Alts.den]
    cases hi : i.den mk u.tab with
    | error e => rw [hi] at h1; exact doesRep_more h1 (o2 := .ok) nofun
    | ok x =>
      rw [hi] at h1
      dsimp only [Except.bind, Except.map] at h1 ⊢
      cases hs : is.den mk x.2 with
      | error e => rw [hs] at h1; exact doesRep_more h1 (o2 := .ok) nofun
      | ok y =>
        rw [hs] at h1
        have h2 := alts_does r t2 rest ⟨oneOrAnd (x.1 :: y.1) :: u.stk, y.2⟩ ht2 hf
        have := doesRep_more (t1 := t :: t1) h1 (o2 := fun _ => _) (fun u1 e => by cases e; exact h2)
        refine doesRep_cast this ?_
        dsimp only [Except.bind, Except.map]
        cases r.den mk y.2 with
        | error e => rfl
        | ok z => simp

theorem grammar_does (a : Alts) : GrammarDoes mk a := by
  intro toks rest u h hf
  have hstop : Rejects clEnv (clSem mk) (.and [.tok 124, clExpr]) rest := rejects_all (gs := [_]) hf (by decide) _ (.head _)
  match a with
  | .one i is =>
    have h1 := expr_does (item_does i) (items_does is) toks rest u h (follows_mono hf (by decide))
    have := (doesL_action (a := .or) (cl_plain mk) (doesL_list (id := 2) (l0 := false) (t1 := toks) (t2 := []) (o2 := .ok) (b := .tok 124) h1
      (fun u1 _ => doesRep_stop hstop))).does
    rw [List.append_nil] at this
    refine does_cast this ?_
    rw [Alts.den]
    cases i.den mk u.tab with
    | error e => rfl
    | ok x =>
      dsimp only [Except.bind, Except.map]
      cases is.den mk x.2 <;> rfl
  | .alt i is r =>
    obtain ⟨t1, t2, rfl, ht1, ht2⟩ := List.map_eq_append_iff.mp h
    have h1 := expr_does (item_does i) (items_does is) t1 (t2 ++ rest) u ht1 (follows_of_key ht2 (by decide))
    rw [Alts.den]
    cases hi : i.den mk u.tab with
    | error e => rw [hi] at h1; exact (doesL_action (cl_plain mk) (doesL_list (k := 0) h1 (o2 := .ok) nofun)).does
    | ok x =>
      rw [hi] at h1
      dsimp only [Except.bind, Except.map] at h1 ⊢
      cases hs : is.den mk x.2 with
      | error e => rw [hs] at h1; exact (doesL_action (cl_plain mk) (doesL_list (k := 0) h1 (o2 := .ok) nofun)).does
      | ok y =>
        rw [hs] at h1
        have h2 := alts_does r t2 rest ⟨oneOrAnd (x.1 :: y.1) :: u.stk, y.2⟩ ht2 hf
        have := (doesL_action (a := .or) (cl_plain mk) (doesL_list (id := 2) (l0 := false) h1 (o2 := fun _ => _) (fun u1 e => by cases e; exact h2))).does
        refine does_cast this ?_
        dsimp only [Except.bind, Except.map]
        cases hr : r.den mk y.2 with
        | error e => rfl
        | ok z =>
          dsimp only [clAct]
          have := reduce_or (gs := oneOrAnd (x.1 :: y.1) :: z.1) (stk := u.stk) (tab := z.2) (m := r.len + 1)
            (by simp [alts_den_len r _ _ hr]) (by omega)
          simpa using this
end

end Tpl
