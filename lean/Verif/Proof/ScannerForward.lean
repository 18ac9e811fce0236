import Verif.Proof.ScannerClean

/-! The scanner reads well-formed text as the lexical grammar says, without errors. -/
namespace Tpl
namespace Scanner
open Spec

/-- The scanner stands before the clean text `r`. -/
structure At (s : Scanner) (r : Str) : Prop where
  sync : Sync s
  clean : Clean r
  rest : s.rest = r

/-- It goes from one state to another by reading `x`, without errors. -/
structure Reads (s : Scanner) (x : Str) (s' : Scanner) : Prop where
  eat : Eat s x s'
  quiet : Quiet s s'

theorem Reads.refl {s : Scanner} (h : Sync s) : Reads s [] s := ⟨.refl h, rfl⟩
theorem Reads.trans {a b c : Scanner} {x y : Str} (h : Reads a x b) (h' : Reads b y c) : Reads a (x ++ y) c :=
  ⟨h.eat.trans h'.eat, h.quiet.trans h'.quiet⟩

theorem At.of_eat {s s' : Scanner} {x r : Str} (h : At s (x ++ r)) (he : Eat s x s') : At s' r := by
  have hr : s'.rest = r := by
    have := he.rest
    rw [h.rest] at this
    exact (List.append_cancel_left this).symm
  refine ⟨he.sync, ?_, hr⟩
  rw [← hr]
  refine he.steps.clean h.sync ?_
  rw [h.rest]
  exact h.clean

theorem At.reads {s s' : Scanner} {x r : Str} (h : At s (x ++ r)) (he : Reads s x s') : At s' r := h.of_eat he.eat

theorem At.ch {s : Scanner} {r : Str} (h : At s r) : s.ch = headRune r := by rw [h.sync.head, h.rest]

/-- Only `next`. -/
inductive NSteps : Scanner → Scanner → Prop
  | refl (s) : NSteps s s
  | next {s s'} : NSteps s s' → NSteps s s'.next

theorem NSteps.trans {a b c : Scanner} (h : NSteps a b) (h' : NSteps b c) : NSteps a c := by
  induction h' with
  | refl => exact h
  | next _ ih => exact ih.next

theorem NSteps.one (s : Scanner) : NSteps s s.next := .next (.refl s)

theorem NSteps.steps {s s' : Scanner} (h : NSteps s s') : Steps s s' := by
  induction h with
  | refl => exact .refl _
  | next _ ih => exact ih.next

theorem FSteps.nsteps {s s' : Scanner} (h : FSteps s s') : NSteps s s' := by
  induction h with
  | refl => exact .refl _
  | next _ _ ih => exact ih.next

theorem NSteps.quiet {s s' : Scanner} (h : NSteps s s') (hs : Sync s) (hc : Clean s.rest) : Quiet s s' := by
  induction h with
  | refl => rfl
  | next h ih => exact ih.trans ((h.steps.sync hs).1.quiet_next (h.steps.clean hs hc))

theorem At.nreads {s s' : Scanner} {x r : Str} (h : At s (x ++ r)) (he : Eat s x s') (hn : NSteps s s') : Reads s x s' :=
  ⟨he, hn.quiet h.sync (by rw [h.rest]; exact h.clean)⟩

theorem whileCh_nsteps (p : Int → Bool) : ∀ (f : Nat) (s : Scanner), NSteps s (whileCh p f s) := by
  intro f
  induction f with
  | zero => intro s; exact .refl s
  | succ f ih =>
    intro s
    unfold whileCh
    split
    · exact (NSteps.one s).trans (ih s.next)
    · exact .refl s

theorem lineCommentLoop_nsteps : ∀ (f : Nat) (cr : Bool) (s : Scanner), NSteps s (lineCommentLoop f cr s).2 := by
  intro f
  induction f with
  | zero => intro cr s; exact .refl s
  | succ f ih =>
    intro cr s
    unfold lineCommentLoop
    split
    · exact (NSteps.one s).trans (ih _ s.next)
    · exact .refl s

theorem blockCommentLoop_nsteps : ∀ (f : Nat) (cr : Bool) (s : Scanner), NSteps s (blockCommentLoop f cr s).2.2 := by
  intro f
  induction f with
  | zero => intro cr s; exact .refl s
  | succ f ih =>
    intro cr s
    unfold blockCommentLoop
    split
    · dsimp only
      split
      · exact (NSteps.one s).next
      · exact (NSteps.one s).trans (ih _ s.next)
    · exact .refl s

theorem switch2_nsteps (s : Scanner) (a b : Nat) : NSteps s (s.switch2 a b).2 := by
  unfold switch2
  split
  · exact .one s
  · exact .refl s

theorem switch3_nsteps (s : Scanner) (a b : Nat) (c : Int) (d : Nat) : NSteps s (s.switch3 a b c d).2 := by
  unfold switch3
  split
  · exact .one s
  · split
    · exact .one s
    · exact .refl s

theorem switch4_nsteps (s : Scanner) (a b : Nat) (c : Int) (d e : Nat) : NSteps s (s.switch4 a b c d e).2 := by
  unfold switch4
  split
  · exact .one s
  · split
    · dsimp only
      split
      · exact (NSteps.one s).next
      · exact .one s
    · exact .refl s

/-- The state in the result, if there is one, is reached by `next`. -/
def OpNexts (s : Scanner) (o : Option (Nat × Scanner)) : Prop := ∀ q, o = some q → NSteps s q.2

theorem opNexts_some {s : Scanner} {q : Nat × Scanner} (h : NSteps s q.2) : OpNexts s (some q) := by
  intro q' e; injection e with e; subst e; exact h
theorem opNexts_none {s : Scanner} : OpNexts s none := nofun
theorem opNexts_ite {s : Scanner} {c : Prop} [Decidable c] {a b : Option (Nat × Scanner)} (ha : OpNexts s a) (hb : OpNexts s b) :
    OpNexts s (if c then a else b) := by
  split
  · exact ha
  · exact hb

theorem scanOp_nsteps {ch : Int} {s : Scanner} : OpNexts s (scanOp ch s) := by
  unfold scanOp
  dsimp only
  repeat' first
    | exact opNexts_none
    | (refine opNexts_some ?_
       first
        | exact .refl _
        | exact .one _
        | exact (NSteps.one _).next
        | exact switch2_nsteps ..
        | exact switch3_nsteps ..
        | exact switch4_nsteps ..
        | exact (NSteps.one _).trans (switch2_nsteps ..))
    | refine opNexts_ite ?_ ?_

/-! ### Single characters -/

theorem At.step {s : Scanner} {u r : Str} (h : At s (u ++ r)) (hu : u ≠ []) (hd : (decodeRune (u ++ r)).2 = u.length) :
    Reads s u s.next ∧ At s.next r := by
  have h0 : 0 ≤ s.ch := by
    rw [h.ch]
    unfold headRune
    rw [if_neg (by simp [hu])]
    omega
  obtain ⟨u', he, hne, hd', _⟩ := h.sync.eatNext h0
  have e := he.rest
  rw [h.rest] at e
  rw [h.rest] at hd'
  have hl : u.length = u'.length := by rw [← hd, hd']
  obtain ⟨rfl, _⟩ := List.append_inj e hl
  have hr := h.nreads he (.one s)
  exact ⟨hr, h.reads hr⟩

theorem At.one {s : Scanner} {c : UInt8} {r : Str} (h : At s (c :: r)) (hc : c.toNat < 0x80) :
    s.ch = c.toNat ∧ Reads s [c] s.next ∧ At s.next r := by
  have h1 := h.step (u := [c]) (r := r) (by simp) (by rw [List.singleton_append, decodeRune_ascii hc]; rfl)
  exact ⟨h.sync.ch_of_rest h.rest hc, h1⟩

theorem headRune_cons {c : UInt8} {r : Str} (hc : c.toNat < 0x80) : headRune (c :: r) = c.toNat := by
  unfold headRune
  rw [if_neg (by simp), decodeRune_ascii hc]

theorem headRune_nil : headRune [] = -1 := by unfold headRune; rw [if_pos rfl]

/-! ### Loops over characters -/

theorem At.while_ {p : Int → Bool} (hp : ∀ c, p c = true → 0 ≤ c) {x r : Str} (hx : Runes (fun c => p c = true) x r)
    (hr : p (headRune r) = false) : ∀ {s : Scanner}, At s (x ++ r) → Reads s x (whileCh p s.mu s) ∧ At (whileCh p s.mu s) r := by
  induction hx with
  | nil r =>
    intro s h
    rw [whileCh_unfold p hp, h.ch, List.nil_append, hr]
    exact ⟨.refl h.sync, h⟩
  | cons h1 h2 h3 _ ih =>
    rename_i u x r
    intro s h
    rw [whileCh_unfold p hp, h.ch, List.append_assoc, h3, if_pos rfl]
    rw [List.append_assoc] at h
    obtain ⟨h4, h5⟩ := h.step h1 (by rw [h2])
    obtain ⟨h6, h7⟩ := ih hr h5
    exact ⟨h4.trans h6, h7⟩

theorem runes_ascii {P : Int → Prop} {r : Str} : ∀ {x : Str}, (∀ b ∈ x, b.toNat < 0x80 ∧ P b.toNat) → Runes P x r := by
  intro x
  induction x with
  | nil => intro _; exact .nil r
  | cons b x ih =>
    intro h
    have hb := h b (by simp)
    refine Runes.cons (u := [b]) (by simp) ?_ ?_ (ih fun c hc => h c (by simp [hc]))
    · rw [List.singleton_append, decodeRune_ascii hb.1]; rfl
    · rw [List.singleton_append, headRune_cons hb.1]; exact hb.2

theorem headRune_ascii {r : Str} (h : headRune r < 0x80) : r = [] ∨ ∃ b t, r = b :: t ∧ b.toNat < 0x80 ∧ headRune r = b.toNat := by
  cases r with
  | nil => exact .inl rfl
  | cons b t =>
    right
    by_cases hb : b.toNat < 0x80
    · exact ⟨b, t, rfl, hb, headRune_cons hb⟩
    · exfalso
      have := decodeRune_ge b t (by omega)
      unfold headRune at h
      rw [if_neg (by simp)] at h
      omega

/-! ### Numbers -/

theorem digitVal_ascii {c : Int} {base : Nat} (hb : base ≤ 16) (h : digitVal c < base) : 0 ≤ c ∧ c < 0x80 := by
  have := digitVal_lt_hex.mp (show digitVal c < 16 by omega)
  omega

theorem At.mantissa {base : Nat} (hb : base ≤ 16) {ds r : Str} (hd : ∀ b ∈ ds, baseP base b) (hr : ¬ digitVal (headRune r) < base)
    {s : Scanner} (h : At s (ds ++ r)) : Reads s ds (scanMantissa base s) ∧ At (scanMantissa base s) r := by
  unfold scanMantissa
  refine At.while_ (fun c hc => (digitVal_ascii hb (of_decide_eq_true hc)).1) (runes_ascii ?_) (decide_eq_false hr) h
  intro b hbm
  have := hd b hbm
  unfold baseP at this
  exact ⟨by have := digitVal_ascii hb this; omega, decide_eq_true this⟩

theorem dec_baseP {b : UInt8} (h : IsDec b) : baseP 10 b := by
  unfold baseP; rw [digitVal_lt_dec]; unfold IsDec at h; omega
theorem oct_baseP {b : UInt8} (h : IsOct b) : baseP 8 b := by
  unfold baseP; rw [digitVal_lt_oct]; unfold IsOct at h; omega
theorem hex_baseP {b : UInt8} (h : IsHex b) : baseP 16 b := by
  unfold baseP; rw [digitVal_lt_hex]; unfold IsHex at h; omega

theorem At.decs {ds r : Str} (hd : ∀ b ∈ ds, IsDec b) (hr : ¬ DecNext r) {s : Scanner} (h : At s (ds ++ r)) :
    Reads s ds (scanMantissa 10 s) ∧ At (scanMantissa 10 s) r := by
  refine At.mantissa (by omega) (fun b hb => dec_baseP (hd b hb)) ?_ h
  rw [digitVal_lt_dec]
  intro hc
  apply hr
  rcases headRune_ascii (r := r) (by omega) with rfl | ⟨b, t, rfl, _, e⟩
  · rw [headRune_nil] at hc; omega
  · exact ⟨b, t, rfl, by unfold IsDec; omega⟩

theorem charNext_ch {s : Scanner} {r : Str} (h : At s r) (c : UInt8) (hc : c.toNat < 0x80) : CharNext c r ↔ s.ch = c.toNat := by
  rw [← h.rest]; exact h.sync.charNext c hc

/-- The part of `scanExponent` before the `i`. -/
def expo (tok : Nat) (s : Scanner) : Nat × Scanner :=
  if s.ch = 101 ∨ s.ch = 69 then
    (FLOAT, scanMantissa 10 (if s.next.ch = 45 ∨ s.next.ch = 43 then s.next.next else s.next))
  else (tok, s)

theorem scanExponent_eq (tok : Nat) (s : Scanner) :
    scanExponent tok s = if (expo tok s).2.ch = 105 then (IMAG, (expo tok s).2.next) else expo tok s := rfl

theorem At.expo {tok : Nat} {ex r : Str} (hx : ExpText ex r) {s : Scanner} (h : At s (ex ++ r)) :
    (Scanner.expo tok s).1 = (if ex = [] then tok else FLOAT) ∧ Reads s ex (Scanner.expo tok s).2 ∧ At (Scanner.expo tok s).2 r := by
  cases hx with
  | none h1 h2 =>
    have h' : At s r := h
    rw [charNext_ch h' 101 (by decide)] at h1
    rw [charNext_ch h' 69 (by decide)] at h2
    unfold Scanner.expo
    rw [if_neg (by
      rintro (e | e)
      · exact h1 e
      · exact h2 e)]
    exact ⟨rfl, .refl h.sync, h'⟩
  | some h1 h2 h3 h4 h5 =>
    rename_i e sg ds
    have h80 : e.toNat < 0x80 := by rcases h1 with rfl | rfl <;> decide
    obtain ⟨hc, hr, ha⟩ := At.one (c := e) (r := sg ++ ds ++ r) h h80
    unfold Scanner.expo
    rw [if_pos (by rcases h1 with rfl | rfl; exact .inl hc; exact .inr hc)]
    refine ⟨(if_neg (by simp)).symm, ?_⟩
    rw [List.append_assoc] at ha
    have key : Reads s.next sg (if s.next.ch = 45 ∨ s.next.ch = 43 then s.next.next else s.next) ∧
        At (if s.next.ch = 45 ∨ s.next.ch = 43 then s.next.next else s.next) (ds ++ r) := by
      rcases h2 with rfl | rfl | rfl
      · rw [if_neg]
        · exact ⟨.refl ha.sync, ha⟩
        · intro hcc
          have ha' : At s.next (ds ++ r) := ha
          have : CharNext 45 (ds ++ r) ∨ CharNext 43 (ds ++ r) := by
            rcases hcc with e | e
            · exact .inl ((charNext_ch ha' 45 (by decide)).mpr e)
            · exact .inr ((charNext_ch ha' 43 (by decide)).mpr e)
          cases ds with
          | nil =>
            obtain ⟨n1, n2⟩ := h5 rfl rfl
            rcases this with q | q
            · exact n1 q
            · exact n2 q
          | cons d ds =>
            have := h3 d (by simp)
            rcases ‹CharNext 45 _ ∨ _› with ⟨t, q⟩ | ⟨t, q⟩ <;>
              (simp only [List.cons_append, List.cons.injEq] at q; rw [q.1] at this; exact absurd this.1 (by decide))
      · obtain ⟨q1, q2, q3⟩ := At.one (c := 45) (r := ds ++ r) ha (by decide)
        rw [if_pos (.inl q1)]
        exact ⟨q2, q3⟩
      · obtain ⟨q1, q2, q3⟩ := At.one (c := 43) (r := ds ++ r) ha (by decide)
        rw [if_pos (.inr q1)]
        exact ⟨q2, q3⟩
    obtain ⟨k1, k2⟩ := At.decs h3 h4 key.2
    refine ⟨?_, k2⟩
    have := hr.trans (key.1.trans k1)
    simpa using this

theorem At.exp_plain {tok : Nat} {ex r : Str} (hx : ExpText ex r) (hi : ¬ CharNext 105 r) {s : Scanner} (h : At s (ex ++ r)) :
    (scanExponent tok s).1 = (if ex = [] then tok else FLOAT) ∧ Reads s ex (scanExponent tok s).2 := by
  obtain ⟨h1, h2, h3⟩ := At.expo (tok := tok) hx h
  rw [charNext_ch h3 105 (by decide)] at hi
  have hi' : ¬ (Scanner.expo tok s).2.ch = 105 := hi
  rw [scanExponent_eq, if_neg hi']
  exact ⟨h1, h2⟩

theorem At.exp_imag {tok : Nat} {ex r : Str} (hx : ExpText ex (105 :: r)) {s : Scanner} (h : At s (ex ++ 105 :: r)) :
    (scanExponent tok s).1 = IMAG ∧ Reads s (ex ++ [105]) (scanExponent tok s).2 := by
  obtain ⟨h1, h2, h3⟩ := At.expo (tok := tok) hx h
  obtain ⟨q1, q2, q3⟩ := At.one (c := 105) (r := r) h3 (by decide)
  have q1' : (Scanner.expo tok s).2.ch = 105 := q1
  rw [scanExponent_eq, if_pos q1']
  exact ⟨rfl, h2.trans q2⟩

/-- Digits followed by a fraction, an exponent or an `i`. -/
theorem At.digits {ds r : Str} (hd : ∀ b ∈ ds, IsDec b) (hne : ds ≠ []) (hr : ¬ DecNext r) (hf : FracNext r) {s : Scanner} (h : At s (ds ++ r)) :
    ∃ s', scanNumberBody false s = scanFraction INT s' ∧ Reads s ds s' ∧ At s' r := by
  obtain ⟨d, ds, rfl⟩ := List.exists_cons_of_ne_nil hne
  have hd0 := hd d (by simp)
  have h80 : d.toNat < 0x80 := by unfold IsDec at hd0; omega
  obtain ⟨hc, hr1, ha⟩ := At.one (c := d) (r := ds ++ r) h h80
  unfold scanNumberBody
  rw [if_neg (by simp)]
  by_cases h48 : s.ch = 48
  · rw [if_pos h48]
    dsimp only
    have hnx : ¬ (s.next.ch = 120 ∨ s.next.ch = 88) := by
      intro e
      have : CharNext 120 (ds ++ r) ∨ CharNext 88 (ds ++ r) := by
        rcases e with e | e
        · exact .inl ((charNext_ch ha 120 (by decide)).mpr e)
        · exact .inr ((charNext_ch ha 88 (by decide)).mpr e)
      cases ds with
      | nil =>
        rcases this with ⟨t, q⟩ | ⟨t, q⟩ <;>
        (rcases hf with ⟨_, q'⟩ | ⟨_, q'⟩ | ⟨_, q'⟩ | ⟨_, q'⟩ <;> (rw [List.nil_append, q'] at q; injection q with q _; exact absurd q (by decide)))
      | cons a ds =>
        have := hd a (by simp)
        rcases ‹CharNext 120 _ ∨ _› with ⟨t, q⟩ | ⟨t, q⟩ <;>
          (simp only [List.cons_append, List.cons.injEq] at q; rw [q.1] at this; exact absurd this.2 (by decide))
    rw [if_neg hnx]
    -- octal digits, then perhaps more digits
    obtain ⟨os, heo, hoo, hon⟩ := mantissa_spec 8 (by omega) ha.sync
    have hrest := heo.rest
    rw [ha.rest] at hrest
    have hosd : ∀ b ∈ os, IsDec b := fun b hb => IsOct.dec (baseP_oct (hoo b hb))
    have hpre : ∃ ds2, ds = os ++ ds2 ∧ (scanMantissa 8 s.next).rest = ds2 ++ r := by
      rcases List.append_eq_append_iff.mp hrest with ⟨a, e1, e2⟩ | ⟨a, e1, e2⟩
      · -- os = ds ++ a
        cases a with
        | nil => exact ⟨[], by simpa using e1.symm, by simpa using e2.symm⟩
        | cons b a =>
          exfalso
          apply hr
          refine ⟨b, _, e2, hosd b (by rw [e1]; simp)⟩
      · exact ⟨a, e1, e2⟩
    obtain ⟨ds2, rfl, hr2⟩ := hpre
    have ha2 : At (scanMantissa 8 s.next) (ds2 ++ r) := by
      rw [List.append_assoc] at ha
      exact ha.of_eat heo
    have hre2 : Reads s.next os (scanMantissa 8 s.next) := ⟨heo, (whileCh_nsteps _ _ _).quiet ha.sync (by rw [ha.rest]; exact ha.clean)⟩
    obtain ⟨s3, hs3, hre3, ha3⟩ : ∃ s3, (if ((scanMantissa 8 s.next).ch == 56 || (scanMantissa 8 s.next).ch == 57) = true then
        scanMantissa 10 (scanMantissa 8 s.next) else scanMantissa 8 s.next) = s3 ∧ Reads (scanMantissa 8 s.next) ds2 s3 ∧ At s3 r := by
      by_cases h89 : ((scanMantissa 8 s.next).ch == 56 || (scanMantissa 8 s.next).ch == 57) = true
      · rw [if_pos h89]
        obtain ⟨q1, q2⟩ := At.decs (fun b hb => hd b (by simp [hb])) hr ha2
        exact ⟨_, rfl, q1, q2⟩
      · rw [if_neg h89]
        cases ds2 with
        | nil => exact ⟨_, rfl, .refl ha2.sync, ha2⟩
        | cons b ds2 =>
          exfalso
          have hb := hd b (by simp)
          unfold IsDec at hb
          obtain ⟨q, _⟩ := At.one (c := b) (r := ds2 ++ r) ha2 (by omega)
          rw [digitVal_lt_oct] at hon
          simp only [Bool.or_eq_true, beq_iff_eq] at h89
          omega
    rw [hs3]
    have hfr : s3.ch = 46 ∨ s3.ch = 101 ∨ s3.ch = 69 ∨ s3.ch = 105 := by
      rw [← ha3.sync.fracNext, ha3.rest]; exact hf
    rw [if_pos hfr]
    refine ⟨s3, rfl, ?_, ha3⟩
    have := hr1.trans (hre2.trans hre3)
    simpa using this
  · rw [if_neg h48]
    obtain ⟨q1, q2⟩ := At.decs hd hr h
    exact ⟨_, rfl, q1, q2⟩

theorem At.int {x r : Str} (hx : IntText true x r) {s : Scanner} (h : At s (x ++ r)) :
    (48 ≤ s.ch ∧ s.ch ≤ 57) ∧ (scanNumberBody false s).1 = INT ∧ Reads s x (scanNumberBody false s).2 := by
  cases hx with
  | dec h1 h2 h3 h4 h5 =>
    rename_i d ds
    have h80 : d.toNat < 0x80 := by unfold IsDec at h1; omega
    obtain ⟨hc, _, _⟩ := At.one (c := d) (r := ds ++ r) h h80
    have hne : s.ch ≠ 48 := by
      intro e
      apply h2
      exact toUInt8_eq (by show d.toNat = 48; omega)
    refine ⟨by unfold IsDec at h1; omega, ?_⟩
    unfold scanNumberBody
    rw [if_neg (by simp), if_neg hne]
    obtain ⟨q1, q2⟩ := At.decs (ds := d :: ds) (by
      intro b hb
      rcases List.mem_cons.mp hb with rfl | hb
      · exact h1
      · exact h3 b hb) h4 h
    have hfr : ¬ FracNext r := h5
    rw [← q2.rest, q2.sync.fracNext] at hfr
    have hf1 : ¬ (scanMantissa 10 s).ch = 46 := fun e => hfr (.inl e)
    have hf2 : ¬ ((scanMantissa 10 s).ch = 101 ∨ (scanMantissa 10 s).ch = 69) := by omega
    have hf3 : ¬ (scanMantissa 10 s).ch = 105 := by omega
    unfold scanFraction
    rw [if_neg hf1]
    unfold scanExponent
    rw [if_neg hf2]
    dsimp only
    rw [if_neg hf3]
    exact ⟨rfl, q1⟩
  | oct h1 h2 h3 h4 =>
    rename_i ds
    obtain ⟨hc, hr, ha⟩ := At.one (c := 48) (r := ds ++ r) h (by decide)
    have hc' : s.ch = 48 := hc
    refine ⟨by omega, ?_⟩
    unfold scanNumberBody
    rw [if_neg (by simp), if_pos hc']
    dsimp only
    simp only [if_true] at h1
    have hnx : ¬ (s.next.ch = 120 ∨ s.next.ch = 88) := by
      intro e
      have : CharNext 120 (ds ++ r) ∨ CharNext 88 (ds ++ r) := by
        rcases e with e | e
        · exact .inl ((charNext_ch ha 120 (by decide)).mpr e)
        · exact .inr ((charNext_ch ha 88 (by decide)).mpr e)
      cases ds with
      | nil => exact h4 ⟨rfl, this⟩
      | cons a ds =>
        have := h1 a (by simp)
        rcases ‹CharNext 120 _ ∨ _› with ⟨t, q⟩ | ⟨t, q⟩ <;>
          (simp only [List.cons_append, List.cons.injEq] at q; rw [q.1] at this; exact absurd this.2 (by decide))
    rw [if_neg hnx]
    have hnd : ¬ (48 ≤ headRune r ∧ headRune r ≤ 57) := by
      intro hcc
      apply h2
      rcases headRune_ascii (r := r) (by omega) with rfl | ⟨b, t, rfl, _, e⟩
      · rw [headRune_nil] at hcc; omega
      · exact ⟨b, t, rfl, by unfold IsDec; omega⟩
    obtain ⟨q1, q2⟩ := At.mantissa (base := 8) (by omega) (fun b hb => oct_baseP (h1 b hb)) (by rw [digitVal_lt_oct]; omega) ha
    have hch := q2.ch
    have h89 : ((scanMantissa 8 s.next).ch == 56 || (scanMantissa 8 s.next).ch == 57) = false := by
      rw [hch]
      simp only [Bool.or_eq_false_iff, beq_eq_false_iff_ne]
      omega
    rw [h89]
    simp only [Bool.false_eq_true, if_false]
    have hfr : ¬ FracNext r := h3
    rw [← q2.rest, q2.sync.fracNext] at hfr
    rw [if_neg hfr]
    exact ⟨rfl, hr.trans q1⟩
  | hex h1 h2 h3 h4 =>
    rename_i c ds
    obtain ⟨hc, hr, ha⟩ := At.one (c := 48) (r := c :: ds ++ r) h (by decide)
    have hc' : s.ch = 48 := hc
    refine ⟨by omega, ?_⟩
    unfold scanNumberBody
    rw [if_neg (by simp), if_pos hc']
    dsimp only
    have h80 : c.toNat < 0x80 := by rcases h1 with rfl | rfl <;> decide
    obtain ⟨hc2, hr2, ha2⟩ := At.one (c := c) (r := ds ++ r) ha h80
    rw [if_pos (by rcases h1 with rfl | rfl; exact .inl hc2; exact .inr hc2)]
    have hnh : ¬ digitVal (headRune r) < 16 := by
      intro hcc
      apply h4
      have := digitVal_ascii (by omega) hcc
      rcases headRune_ascii (r := r) (by omega) with rfl | ⟨b, t, rfl, _, e⟩
      · rw [headRune_nil] at this; omega
      · refine ⟨b, t, rfl, ?_⟩
        rw [digitVal_lt_hex] at hcc
        unfold IsHex; omega
    obtain ⟨q1, q2⟩ := At.mantissa (base := 16) (by omega) (fun b hb => hex_baseP (h2 b hb)) hnh ha2
    have hall := hr.trans (hr2.trans q1)
    have hoff := hall.eat.offset
    have hlen := List.length_pos_iff.mpr (h3 rfl)
    have hl2 : ([48] ++ ([c] ++ ds)).length = ds.length + 2 := by simp
    have hge : ¬ (scanMantissa 16 s.next.next).offset - s.offset ≤ 2 := by omega
    rw [if_neg hge]
    refine ⟨rfl, ?_⟩
    simpa using hall

end Scanner
end Tpl
