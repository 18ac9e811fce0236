import Verif.Proof.QlangTable
import Verif.Proof.Trace

/-! Building traces: what reads a list of tokens, and what refuses the next ones. -/
namespace Tpl.Qlang.Src
open Spec

variable {env : Env Str}

/-- Reading `ts` in front of `rest`. -/
def Rd (env : Env Str) (g : Gr Str) (ts : List Token) (l : Int) (e : List (Ev Str)) (rest : List Token) : Prop :=
  Tr env (.one g) (ts ++ rest) (.succ ts.length l) e
def Sq (env : Env Str) (cut : Bool) (gs : List (Gr Str)) (ts : List Token) (e : List (Ev Str)) (rest : List Token) : Prop :=
  ∃ l, Tr env (.seq gs cut) (ts ++ rest) (.succ ts.length l) e
def Mn (env : Env Str) (g : Gr Str) (ts : List Token) (k : Int) (e : List (Ev Str)) (rest : List Token) : Prop :=
  Tr env (.many g) (ts ++ rest) (.succ ts.length k) e
/-- Refusing. -/
def Rj (env : Env Str) (g : Gr Str) (src : List Token) : Prop := ∃ n, Tr env (.one g) src (.fail n) []

section
variable {g a b : Gr Str} {gs : List (Gr Str)} {ts ts' rest : List Token} {l l' k : Int} {e e' : List (Ev Str)} {cut : Bool}
  {t : Token} {n id : Nat} {m m1 m2 : Str}

theorem Rd.tok (h : t.kind = n) : Rd env (.tok n) [t] (-1) [] rest := Spec.Tr.tok (.inl h)

theorem Rd.action (h : Rd env g ts l e rest) : Rd env (.action m g) ts l (e ++ [.act m g ts l]) rest := by
  have := Tr.action (a := m) h
  rw [List.take_left] at this
  exact this

theorem Rd.action2 (h : Rd env g ts l e rest) :
    Rd env (.action m1 (.action m g)) ts l (e ++ [.act m g ts l, .act m1 (.action m g) ts l]) rest := by
  have := (h.action (m := m)).action (m := m1)
  rw [List.append_assoc] at this
  exact this

theorem Rd.action3 (h : Rd env g ts l e rest) :
    Rd env (.action m2 (.action m1 (.action m g))) ts l
      (e ++ [.act m g ts l, .act m1 (.action m g) ts l, .act m2 (.action m1 (.action m g)) ts l]) rest := by
  have := (h.action2 (m := m) (m1 := m1)).action (m := m2)
  rw [List.append_assoc] at this
  exact this

theorem Rd.named (h : Rd env g ts l e rest) : Rd env (.named m g) ts (-1) e rest := Tr.named h
theorem Rd.var (he : env n = some g) (h : Rd env g ts l e rest) : Rd env (.var n) ts (-1) e rest := Tr.var he h
theorem Rd.and (h : Sq env false gs ts e rest) : Rd env (.and gs) ts gs.length e rest := by
  obtain ⟨l, h⟩ := h
  exact Tr.and h
theorem Rd.opt (h : Rd env g ts l e rest) : Rd env (.rep01 id g) ts 1 e rest := Tr.opt h
theorem Rd.optNone (h : Rj env g rest) : Rd env (.rep01 id g) [] 0 [] rest := Tr.optNone h.choose_spec
theorem Rd.rep0 (h : Mn env g ts k e rest) : Rd env (.rep0 id g) ts k e rest := Tr.rep0 h
theorem Rd.not (h : Rj env g rest) : Rd env (.not g) [] (-1) [] rest := Tr.not h.choose_spec

theorem Rd.list {l0 : Bool} (h : Rd env a ts l e (ts' ++ rest)) (h' : Mn env (.and [b, a]) ts' k e' rest) :
    Rd env (.list id a b l0) (ts ++ ts') (k + 1) (e ++ e') rest := by
  unfold Rd at h ⊢
  rw [List.append_assoc, List.length_append]
  refine Tr.list (o := .succ ts'.length k) h ?_
  rw [List.drop_left]
  exact h'
theorem Rd.list0 (h : Rj env a rest) : Rd env (.list id a b true) [] 0 [] rest := Tr.list0 h.choose_spec

theorem Sq.nil : Sq env cut [] [] [] rest := ⟨0, .seqEnd⟩
theorem Sq.mark (h : Sq env true gs ts e rest) : Sq env cut (.nil :: gs) ts e rest := by
  obtain ⟨l, h⟩ := h
  exact ⟨l, .seqMark h⟩
theorem Sq.cons (h : Rd env g ts l e (ts' ++ rest)) (h' : Sq env cut gs ts' e' rest) (hg : g ≠ .nil := by nofun) :
    Sq env cut (g :: gs) (ts ++ ts') (e ++ e') rest := by
  obtain ⟨l', h'⟩ := h'
  refine ⟨l', ?_⟩
  unfold Rd at h
  rw [List.append_assoc, List.length_append]
  refine Tr.seqNext (o := .succ ts'.length l') hg h ?_
  rw [List.drop_left]
  exact h'
theorem Sq.last (h : Rd env g ts l e rest) (hg : g ≠ .nil := by nofun) : Sq env cut [g] ts e rest := by
  have := Sq.cons (ts' := []) h (Sq.nil (cut := cut) (rest := rest)) hg
  rwa [List.append_nil, List.append_nil] at this
theorem Sq.tok (ht : t.kind = n) (h : Sq env cut gs ts e rest) : Sq env cut (.tok n :: gs) (t :: ts) e rest :=
  Sq.cons (ts := [t]) (e := []) (.tok ht) h
theorem Sq.tokLast (ht : t.kind = n) : Sq env cut [.tok n] [t] [] rest := .tok ht .nil
theorem Sq.act (ht : t.kind = n) (h : Sq env cut gs ts e rest) :
    Sq env cut (.action m (.tok n) :: gs) (t :: ts) (.act m (.tok n) [t] (-1) :: e) rest :=
  Sq.cons (ts := [t]) (e := [_]) (Rd.action (.tok ht)) h
theorem Sq.actLast (ht : t.kind = n) : Sq env cut [.action m (.tok n)] [t] [.act m (.tok n) [t] (-1)] rest := .act ht .nil
/-- Something that reads nothing and calls nothing. -/
theorem Sq.skip (h : Rd env g [] l [] (ts ++ rest)) (h' : Sq env cut gs ts e rest) (hg : g ≠ .nil := by nofun) :
    Sq env cut (g :: gs) ts e rest := Sq.cons (ts := []) (e := []) h h' hg

theorem Mn.none (h : Rj env g rest) : Mn env g [] 0 [] rest := Tr.manyEnd h.choose_spec
theorem Mn.more (h : Rd env g ts l e (ts' ++ rest)) (h' : Mn env g ts' k e' rest) :
    Mn env g (ts ++ ts') (k + 1) (e ++ e') rest := by
  unfold Rd at h
  unfold Mn
  rw [List.append_assoc, List.length_append]
  refine Tr.manyMore (o := .succ ts'.length k) h ?_
  rw [List.drop_left]
  exact h'

end

/-! ### Refusing -/

/-- The kind of the first token, if there is one. -/
def hd : List Token → Option Nat
  | [] => none
  | t :: _ => some t.kind

/-- The next tokens have these kinds (`none`: there is none). -/
def Sees : List (Option Nat) → List Token → Prop
  | [], _ => True
  | none :: _, src => src = []
  | some k :: ks, src => ∃ t more, src = t :: more ∧ t.kind = k ∧ Sees ks more

theorem sees_hd (src : List Token) : Sees [hd src] src := by
  cases src with
  | nil => rfl
  | cons t src => exact ⟨t, src, rfl, rfl, trivial⟩

theorem sees_two (src : List Token) : Sees [hd src, hd src.tail] src := by
  cases src with
  | nil => rfl
  | cons t src => exact ⟨t, src, rfl, rfl, sees_hd src⟩

/-- A token of kind `k'` is accepted for kind `k`. -/
def fitsB (k k' : Nat) : Bool := k' == k || (k' == 4 && k == 5)

theorem fitsB_iff {k : Nat} {t : Token} : fitsB k t.kind = true ↔ Fits k t := by
  simp [fitsB, Fits]

/-- The next token is not of kind `k`. -/
def rejTok (k : Nat) : List (Option Nat) → Bool
  | none :: _ => true
  | some k' :: _ => !fitsB k k'
  | [] => false

/-- The next token is of kind `k`. -/
def seesTok (k : Nat) : List (Option Nat) → Bool
  | some k' :: _ => fitsB k k'
  | _ => false

mutual
/-- Is `g` sure to refuse, without any callback, when these tokens come next? -/
def rej (f : Nat) (g : Gr Str) (look : List (Option Nat)) : Bool :=
  match f with
  | 0 => false
  | f + 1 => match g with
    | .tok k => rejTok k look
    | .not (.tok k) => seesTok k look
    | .and gs => rejSeq f gs look
    | .or gs => rejAlt f gs look
    | .rep1 _ g => rej f g look
    | .list _ g _ false => rej f g look
    | .var v => v == 0 && rej f gFactor look
    | .named _ g => rej f g look
    | .action _ g => rej f g look
    | _ => false
def rejSeq (f : Nat) (gs : List (Gr Str)) (look : List (Option Nat)) : Bool :=
  match f with
  | 0 => false
  | f + 1 => match gs with
    | [] => false
    | .nil :: _ => false
    | .tok k :: gs => rejTok k look || (seesTok k look && rejSeq f gs look.tail)
    | g :: _ => rej f g look
def rejAlt (f : Nat) (gs : List (Gr Str)) (look : List (Option Nat)) : Bool :=
  match f with
  | 0 => false
  | f + 1 => match gs with
    | [] => true
    | g :: gs => rej f g look && rejAlt f gs look
end

theorem rj_tok {k : Nat} {look : List (Option Nat)} {src : List Token} (hs : Sees look src) (h : rejTok k look = true) :
    Tr env (.one (.tok k)) src (.fail 0) [] := by
  match look, hs, h with
  | none :: _, hs, _ => cases hs; exact .tokEnd
  | some k' :: _, ⟨t, more, h1, h2, _⟩, h =>
    subst h1 h2
    refine .tokNot fun hf => ?_
    rw [rejTok, fitsB_iff.2 hf] at h
    cases h

theorem sees_tok {k : Nat} {look : List (Option Nat)} {src : List Token} (hs : Sees look src) (h : seesTok k look = true) :
    ∃ t more, src = t :: more ∧ Fits k t ∧ Sees look.tail more := by
  match look, hs, h with
  | some k' :: _, ⟨t, more, h1, h2, h3⟩, h =>
    subst h1 h2
    exact ⟨t, more, rfl, fitsB_iff.1 h, h3⟩

theorem rejs (he : env 0 = some gFactor) : ∀ f : Nat,
    (∀ g look src, Sees look src → rej f g look = true → Rj env g src) ∧
    (∀ gs look src, Sees look src → rejSeq f gs look = true → ∃ n, Tr env (.seq gs false) src (.fail n) []) ∧
    (∀ gs look src, Sees look src → rejAlt f gs look = true → ∃ n, Tr env (.alt gs) src (.fail n) []) := by
  intro f
  induction f with
  | zero => exact ⟨fun g look src _ h => by simp [rej] at h, fun g look src _ h => by simp [rejSeq] at h,
      fun g look src _ h => by simp [rejAlt] at h⟩
  | succ f ih =>
    obtain ⟨ih1, ih2, ih3⟩ := ih
    refine ⟨?_, ?_, ?_⟩
    · intro g look src hs h
      unfold rej at h
      split at h
      · exact ⟨0, rj_tok hs h⟩
      · obtain ⟨t, more, h1, h2, _⟩ := sees_tok hs h
        subst h1
        exact ⟨0, .notNot (.tok h2)⟩
      · obtain ⟨n, h⟩ := ih2 _ _ _ hs h
        exact ⟨n, .and h⟩
      · obtain ⟨n, h⟩ := ih3 _ _ _ hs h
        exact ⟨n, .or h⟩
      · obtain ⟨n, h⟩ := ih1 _ _ _ hs h
        exact ⟨n, .rep1Fail h⟩
      · obtain ⟨n, h⟩ := ih1 _ _ _ hs h
        exact ⟨n, .listFail h⟩
      · rename_i v
        simp only [Bool.and_eq_true, beq_iff_eq] at h
        obtain ⟨n, h2⟩ := ih1 _ _ _ hs h.2
        exact ⟨n, .var (h.1 ▸ he) h2⟩
      · obtain ⟨n, h⟩ := ih1 _ _ _ hs h
        exact ⟨n, .named h⟩
      · obtain ⟨n, h⟩ := ih1 _ _ _ hs h
        exact ⟨n, .actionFail h⟩
      · cases h
    · intro gs look src hs h
      unfold rejSeq at h
      split at h
      · cases h
      · cases h
      · rename_i k gs
        simp only [Bool.or_eq_true, Bool.and_eq_true] at h
        rcases h with h | ⟨h, h'⟩
        · exact ⟨0, .seqFail nofun (rj_tok hs h)⟩
        · obtain ⟨t, more, h1, h2, h3⟩ := sees_tok hs h
          subst h1
          obtain ⟨n, h⟩ := ih2 _ _ _ h3 h'
          exact ⟨1 + n, Tr.seqNext (g := .tok k) (e := []) (o := .fail n) nofun (.tok h2) h⟩
      · rename_i g gs hn _
        obtain ⟨n, h⟩ := ih1 _ _ _ hs h
        exact ⟨n, .seqFail (fun hg => hn hg) h⟩
    · intro gs look src hs h
      match gs, h with
      | [], _ => exact ⟨0, .altEnd⟩
      | g :: gs, h =>
        simp only [rejAlt, Bool.and_eq_true] at h
        obtain ⟨n, h1⟩ := ih1 _ _ _ hs h.1
        obtain ⟨n', h2⟩ := ih3 _ _ _ hs h.2
        exact ⟨max n n', Tr.altNext (o := .fail n') h1 h2⟩

/-- All of these tokens are refused by `g`. -/
def rejAll (g : Gr Str) (ks : List (Option Nat)) : Bool := ks.all fun k => rej 60 g [k]

theorem rj_of (he : env 0 = some gFactor) {g : Gr Str} {ks : List (Option Nat)} {src : List Token} (hr : rejAll g ks = true)
    (h : hd src ∈ ks) : Rj env g src :=
  (rejs he 60).1 g _ src (sees_hd src) (List.all_eq_true.1 hr _ h)

/-- The next alternative after some that refuse. -/
theorem Rd.or {gs : List (Gr Str)} {g : Gr Str} {ts rest : List Token} {l : Int} {e : List (Ev Str)} (i : Nat)
    (hi : gs[i]? = some g) (hr : ∀ x ∈ gs.take i, Rj env x (ts ++ rest)) (h : Rd env g ts l e rest) :
    Rd env (.or gs) ts gs.length e rest := by
  have key : ∀ (i : Nat) (gs : List (Gr Str)), gs[i]? = some g → (∀ x ∈ gs.take i, Rj env x (ts ++ rest)) →
      Tr env (.alt gs) (ts ++ rest) (.succ ts.length l) e := by
    intro i
    induction i with
    | zero =>
      intro gs hi _
      match gs, hi with
      | _ :: _, hi => cases hi; exact .altHit h
    | succ i ih =>
      intro gs hi hr
      match gs, hi with
      | x :: gs, hi =>
        obtain ⟨n, hx⟩ := hr x (by simp)
        have h2 := ih gs hi fun y hy => hr y (by simp [hy])
        exact Tr.altNext (e := []) (o := .succ ts.length l) hx h2
  exact Tr.or (key i gs hi hr)

/-- The first token decides. -/
theorem Rd.orHd (he : env 0 = some gFactor) {gs : List (Gr Str)} {g : Gr Str} {t : Token} {ts rest : List Token} {l : Int}
    {e : List (Ev Str)} (i : Nat) (hi : gs[i]? = some g) {k : Nat} (hk : t.kind = k)
    (hr : ((gs.take i).all fun x => rej 60 x [some k]) = true) (h : Rd env g (t :: ts) l e rest) :
    Rd env (.or gs) (t :: ts) gs.length e rest :=
  Rd.or i hi (fun x hx => (rejs he 60).1 x [some k] _ ⟨t, _, rfl, hk, trivial⟩ (List.all_eq_true.1 hr x hx)) h

end Tpl.Qlang.Src
