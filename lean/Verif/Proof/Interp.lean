import Verif.Spec.Interp
import Verif.Proof.Go
import Verif.Proof.Keeps
import Verif.Proof.Trace

/-! Lemmas about the engine. -/
namespace Tpl
open Spec
variable {E X I τ F W T : Type}

theorem Sem.ext' {A σ V P : Type} {x y : Sem A σ V P} (h1 : x.act = y.act) (h2 : x.start = y.start) (h3 : x.finish = y.finish) :
    x = y := by
  obtain ⟨_, _, _, _⟩ := x
  obtain ⟨_, _, _, _⟩ := y
  cases h1; cases h2; cases h3; rfl

/-! ### Literals -/

theorem digitVal_dec {b : UInt8} (h : IsDec b) : digitVal b = some (digit b) := by
  obtain ⟨h1, h2⟩ := h
  have a : (48 : UInt8) ≤ b := UInt8.le_iff_toNat_le.mpr h1
  have c : b ≤ (57 : UInt8) := UInt8.le_iff_toNat_le.mpr h2
  rw [digitVal, if_pos ⟨a, c⟩, digit, if_pos (by omega)]

theorem digitVal_hex {b : UInt8} (h : IsHex b) : digitVal b = some (digit b) := by
  rcases h with h | ⟨h1, h2⟩ | ⟨h1, h2⟩
  · exact digitVal_dec h
  · have n1 : ¬ ((48 : UInt8) ≤ b ∧ b ≤ 57) := by
      rintro ⟨_, h⟩; have := UInt8.le_iff_toNat_le.mp h; simp at this; omega
    have a : (97 : UInt8) ≤ b := UInt8.le_iff_toNat_le.mpr h1
    have c : b ≤ (122 : UInt8) := UInt8.le_iff_toNat_le.mpr (by simp; omega)
    rw [digitVal, if_neg n1, if_pos ⟨a, c⟩, digit, if_neg (by omega), if_neg (by omega)]
  · have n1 : ¬ ((48 : UInt8) ≤ b ∧ b ≤ 57) := by
      rintro ⟨_, h⟩; have := UInt8.le_iff_toNat_le.mp h; simp at this; omega
    have n2 : ¬ ((97 : UInt8) ≤ b ∧ b ≤ 122) := by
      rintro ⟨h, _⟩; have := UInt8.le_iff_toNat_le.mp h; simp at this; omega
    have a : (65 : UInt8) ≤ b := UInt8.le_iff_toNat_le.mpr h1
    have c : b ≤ (90 : UInt8) := UInt8.le_iff_toNat_le.mpr (by simp; omega)
    rw [digitVal, if_neg n1, if_neg n2, if_pos ⟨a, c⟩, digit, if_neg (by omega), if_pos (by omega)]

theorem parseDigits_all {base : Nat} {ds : Str} (h : ∀ b ∈ ds, digitVal b = some (digit b) ∧ digit b < base) :
    ∀ acc, parseDigits base acc ds = some (ds.foldl (fun x d => x * base + digit d) acc) := by
  induction ds with
  | nil => intro acc; rfl
  | cons b ds ih =>
    intro acc
    have := h b (.head _)
    rw [parseDigits, this.1]
    dsimp only
    rw [if_pos this.2]
    exact ih (fun b hb => h b (.tail _ hb)) _

theorem parseDigits_bad {base : Nat} {ds : Str} {b : UInt8} (hb : b ∈ ds) (h : ∀ d, digitVal b = some d → base ≤ d) :
    ∀ acc, parseDigits base acc ds = none := by
  induction ds with
  | nil => cases hb
  | cons a ds ih =>
    intro acc
    rw [parseDigits]
    cases hb with
    | head =>
      cases hd : digitVal b with
      | none => rfl
      | some d => dsimp only; rw [if_neg (by have := h d hd; omega)]
    | tail _ hb =>
      cases hd : digitVal a with
      | none => rfl
      | some d =>
        dsimp only
        split
        · exact ih hb _
        · rfl

/-- A numeral without sign. -/
theorem strconvInt_numeral {base : Nat} {ds : Str} (hne : ds ≠ [])
    (h : ∀ b ∈ ds, (48 ≤ b.toNat) ∧ digitVal b = some (digit b) ∧ digit b < base) :
    strconvInt ds base = if numeral base ds < 2 ^ 63 then .ok (numeral base ds) else .error .range := by
  have hp : parseUint base ds = some (numeral base ds) := by
    cases ds with
    | nil => exact absurd rfl hne
    | cons b ds => exact parseDigits_all (fun b hb => (h b hb).2) 0
  cases ds with
  | nil => exact absurd rfl hne
  | cons b ds =>
    have hb := (h b (.head _)).1
    have n1 : b ≠ 45 := by rintro rfl; simp at hb
    have n2 : b ≠ 43 := by rintro rfl; simp at hb
    unfold strconvInt
    split
    · rename_i heq; cases heq; exact absurd rfl n1
    · rename_i heq; cases heq; exact absurd rfl n2
    · rw [hp]

theorem strconvInt_bad {base : Nat} {ds : Str} {b : UInt8} (hb : b ∈ ds) (h48 : ∀ b ∈ ds, 48 ≤ b.toNat)
    (h : ∀ d, digitVal b = some d → base ≤ d) : strconvInt ds base = .error .syntax_ := by
  have hp : parseUint base ds = none := by
    cases ds with
    | nil => rfl
    | cons a ds => exact parseDigits_bad hb h 0
  cases ds with
  | nil => cases hb
  | cons a ds =>
    have hb := h48 a (.head _)
    have n1 : a ≠ 45 := by rintro rfl; simp at hb
    have n2 : a ≠ 43 := by rintro rfl; simp at hb
    unfold strconvInt
    split
    · rename_i heq; cases heq; exact absurd rfl n1
    · rename_i heq; cases heq; exact absurd rfl n2
    · rw [hp]

theorem digit_dec {b : UInt8} (h : IsDec b) : digit b < 10 := by
  obtain ⟨h1, h2⟩ := h
  rw [digit, if_pos (by omega)]; omega

theorem digit_oct {b : UInt8} (h : IsOct b) : digit b < 8 := by
  obtain ⟨h1, h2⟩ := h
  rw [digit, if_pos (by omega)]; omega

theorem digit_hex {b : UInt8} (h : IsHex b) : digit b < 16 := by
  rcases h with ⟨h1, h2⟩ | ⟨h1, h2⟩ | ⟨h1, h2⟩ <;> unfold digit <;> split <;> (try split) <;> omega

theorem hex_ge {b : UInt8} (h : IsHex b) : 48 ≤ b.toNat := by
  rcases h with ⟨h1, h2⟩ | ⟨h1, h2⟩ | ⟨h1, h2⟩ <;> omega

theorem oct_dec {b : UInt8} (h : IsOct b) : IsDec b := ⟨h.1, by have := h.2; omega⟩

theorem dec_not_x {b : UInt8} (h : IsDec b) : ¬ (b = 120 ∨ b = 88) := by
  obtain ⟨_, h2⟩ := h
  rintro (rfl | rfl) <;> simp at h2

theorem parseInt_dec {d : UInt8} {ds : Str} (hd : d ≠ 48) : ParseInt (d :: ds) = .ok (strconvInt (d :: ds) 10) := by
  unfold ParseInt
  split
  · rename_i h; cases h
  · rename_i h; cases h; exact absurd rfl hd
  · rename_i h; cases h; exact absurd rfl hd
  · rfl

theorem intValue_dec {d : UInt8} {ds : Str} (hd : d ≠ 48) : intValue (d :: ds) = numeral 10 (d :: ds) := by
  unfold intValue
  split
  · rename_i h; cases h; exact absurd rfl hd
  · rfl

theorem parseInt_text {lit r : Str} (h : IntText true lit r) :
    ParseInt lit = .ok (if intValue lit < 2 ^ 63 then .ok (intValue lit) else .error .range) := by
  cases h with
  | @dec d ds _ hd h0 hds _ _ =>
    rw [parseInt_dec h0, intValue_dec h0, strconvInt_numeral (by simp)]
    intro b hb
    have : IsDec b := by cases hb with
      | head => exact hd
      | tail _ hb => exact hds b hb
    exact ⟨this.1, digitVal_dec this, digit_dec this⟩
  | @oct ds _ hds _ _ _ =>
    simp only [if_true] at hds
    cases ds with
    | nil => rfl
    | cons c ds =>
      have hc := dec_not_x (oct_dec (hds c (.head _)))
      rw [show ParseInt (48 :: c :: ds) = .ok (strconvInt (c :: ds) 8) from by simp only [ParseInt]; rw [if_neg hc]]
      rw [show intValue (48 :: c :: ds) = numeral 8 (c :: ds) from by simp only [intValue]; rw [if_neg hc]]
      rw [strconvInt_numeral (by simp)]
      intro b hb
      have := hds b hb
      exact ⟨this.1, digitVal_dec (oct_dec this), digit_oct this⟩
  | @hex x ds _ hx hds hne _ =>
    rw [show ParseInt (48 :: x :: ds) = .ok (strconvInt ds 16) from by simp only [ParseInt]; rw [if_pos hx]]
    rw [show intValue (48 :: x :: ds) = numeral 16 ds from by simp only [intValue]; rw [if_pos hx]]
    rw [strconvInt_numeral (hne rfl)]
    intro b hb
    have := hds b hb
    exact ⟨hex_ge this, digitVal_hex this, digit_hex this⟩

theorem parseInt_malformed {lit : Str} (h : Malformed lit) : ParseInt lit = .ok (.error .syntax_) := by
  rcases h with rfl | rfl | ⟨ds, rfl, hd, b, hb, hno⟩
  · rfl
  · rfl
  · cases ds with
    | nil => cases hb
    | cons c ds =>
      have hc := dec_not_x (hd c (.head _))
      rw [show ParseInt (48 :: c :: ds) = .ok (strconvInt (c :: ds) 8) from by simp only [ParseInt]; rw [if_neg hc]]
      rw [strconvInt_bad hb (fun b hb => (hd b hb).1)]
      intro d h
      have h1 := hd b hb
      rw [digitVal_dec h1] at h
      cases h
      have : ¬ b.toNat ≤ 55 := fun h => hno ⟨h1.1, h⟩
      have := h1.2
      rw [digit, if_pos (by omega)]
      omega

theorem intText_malformed {lit r : Str} (h : IntText false lit r) (hn : ¬ IntText true lit r) : Malformed lit := by
  cases h with
  | dec hd h0 hds h1 h2 => exact absurd (.dec hd h0 hds h1 h2) hn
  | @oct ds _ hds h1 h2 h3 =>
    have hds : ∀ b ∈ ds, IsDec b := fun b hb => by simpa using hds b hb
    by_cases ho : ∀ b ∈ ds, IsOct b
    · exact absurd (.oct (by simpa using ho) h1 h2 h3) hn
    · simp only [Classical.not_forall] at ho
      obtain ⟨b, hb, hno⟩ := ho
      exact .inr (.inr ⟨ds, rfl, hds, b, hb, hno⟩)
  | @hex x ds _ hx hds hne h1 =>
    cases ds with
    | nil => rcases hx with rfl | rfl
             · exact .inl rfl
             · exact .inr (.inl rfl)
    | cons b ds => exact absurd (.hex hx hds (fun _ => by simp) h1) hn

/-! ### Calls -/

variable {R : Reflect W} {f : Nat} {m : Mat Str (Eng I τ) (IPanic E X)} {s : St (Eng I τ)}

theorem validateType_passes {t : GoTy} {v w : W} (h : Passes R t v w) :
    (validateType R (some v) t : Code E X I τ _) = pure (.ok (some w)) := by
  unfold validateType
  cases h with
  | any h => rw [if_pos h]; rfl
  | same h =>
    split
    · rfl
    · dsimp only; rw [if_pos h]
  | number h1 h2 h3 =>
    subst h1
    rw [if_neg (by decide)]
    dsimp only
    rw [if_neg (by intro h; rw [h] at h3; revert h3; decide), if_pos ⟨rfl, h2, h3⟩]

theorem validateType_bad {t : GoTy} {v : W} (h : ∀ w, ¬ Passes R t v w) :
    (validateType R (some v) t : Code E X I τ _) = pure (.error (.type_ t (R.ty v))) := by
  unfold validateType
  rw [if_neg (fun hk => h _ (.any hk))]
  dsimp only
  rw [if_neg (fun hk => h _ (.same hk)), if_neg (fun hk => h _ (.number hk.1 hk.2.1 hk.2.2))]

theorem validateAll_passes {ts : List GoTy} {vs ws : List W} (h : PassAll R ts vs ws) :
    (validateAll R (vs.map some) ts : Code E X I τ _) = pure (.ok (ws.map some)) := by
  induction h with
  | nil => rfl
  | cons h1 _ ih =>
    simp only [List.map_cons, validateAll]
    rw [validateType_passes h1, pure_bind, ih]
    rfl

theorem Spec.PassAll.length {ts : List GoTy} {vs ws : List W} (h : PassAll R ts vs ws) :
    vs.length = ts.length ∧ ws.length = ts.length := by
  induction h with
  | nil => exact ⟨rfl, rfl⟩
  | cons _ _ ih => exact ⟨congrArg (· + 1) ih.1, congrArg (· + 1) ih.2⟩

theorem Spec.PassAll.split {t1 t2 : List GoTy} {vs ws : List W} (h : PassAll R (t1 ++ t2) vs ws) :
    PassAll R t1 (vs.take t1.length) (ws.take t1.length) ∧ PassAll R t2 (vs.drop t1.length) (ws.drop t1.length) := by
  induction t1 generalizing vs ws with
  | nil => exact ⟨.nil, h⟩
  | cons t t1 ih =>
    cases h with
    | cons h1 h2 => exact ⟨.cons h1 (ih h2).1, (ih h2).2⟩

theorem validateArgs_passes {fn : GoFn (Go Str (Eng I τ) (IPanic E X)) W} {vs ws : List W}
    (h : PassAll R (paramTypes fn vs.length) vs ws) :
    (validateArgs R fn.ins fn.rest (vs.map some) : Code E X I τ _) = pure (.ok (ws.map some)) := by
  unfold validateArgs
  unfold paramTypes at h
  cases hr : fn.rest with
  | none => rw [hr] at h; exact validateAll_passes h
  | some t =>
    rw [hr] at h
    dsimp only at h ⊢
    obtain ⟨h1, h2⟩ := h.split
    rw [← List.map_drop, List.length_map, validateAll_passes h2, pure_bind]
    dsimp only
    rw [← List.map_take, validateAll_passes h1, pure_bind]
    dsimp only
    rw [← List.map_append, List.take_append_drop]

/-- All arguments may be passed. -/
def CanPass (R : Reflect W) (ts : List GoTy) (ws : List W) : Prop := ∀ p ∈ ws.zip ts, R.assignable p.1 p.2 = true

theorem reflectCall_ok {fn : GoFn (Go Str (Eng I τ) (IPanic E X)) W} {ws : List W}
    (hl : ws.length = (paramTypes fn ws.length).length) (h : CanPass R (paramTypes fn ws.length) ws) :
    reflectCall R fn (ws.map some) = fn.body ws := by
  unfold reflectCall
  have ht : fn.types (ws.map some).length = paramTypes fn ws.length := by
    unfold paramTypes GoFn.types
    rw [List.length_map]
    cases fn.rest <;> rfl
  rw [ht, if_pos]
  · congr 1
    rw [List.filterMap_map]
    simp
  · refine ⟨by rw [List.length_map]; exact hl, ?_⟩
    rw [List.all_eq_true]
    intro p hp
    rw [List.zip_map_left, List.mem_map] at hp
    obtain ⟨q, hq, rfl⟩ := hp
    exact h q hq

theorem push_run (k : SliceStack τ T W E) : ∀ {outs : List W} {vs : List T}, outs.map k.conv = vs.map .ok →
    ∀ s : St (Eng I τ), (k.push outs : Code E X I τ _).run f m s = some (.ok none { s with u := s.u.onStack k (· ++ vs) }) := by
  intro outs
  induction outs with
  | nil =>
    intro vs h s
    cases vs with
    | nil =>
      show some (Cb.ok none s) = _
      simp only [Eng.onStack, List.append_nil, k.set_get]
    | cons => cases h
  | cons w ws ih =>
    intro vs h s
    cases vs with
    | nil => cases h
    | cons v vs =>
      simp only [List.map_cons, List.cons.injEq] at h
      simp only [SliceStack.push]
      rw [h.1]
      dsimp only
      rw [Go.bind_ok (Go.run_modify _), ih h.2]
      simp only [Eng.onStack, k.get_set, k.set_set, List.append_assoc, List.singleton_append]

theorem validateType_cases (R : Reflect W) (t : GoTy) (v : W) :
    (∃ w, Passes R t v w) ∨ ∀ w, ¬ Passes R t v w := by
  by_cases h : ∃ w, Passes R t v w
  · exact .inl h
  · exact .inr (fun w hw => h ⟨w, hw⟩)

theorem validateAll_bad {ts : List GoTy} {vs : List W} (hl : vs.length = ts.length)
    (h : ∃ p ∈ ts.zip vs, ∀ w, ¬ Passes R p.1 p.2 w) :
    ∃ t ty, (validateAll R (vs.map some) ts : Code E X I τ _) = pure (.error (.type_ t ty)) := by
  induction vs generalizing ts with
  | nil => obtain ⟨p, hp, _⟩ := h; simp at hp
  | cons v vs ih =>
    cases ts with
    | nil => simp at hl
    | cons t ts =>
      simp only [List.map_cons, validateAll]
      rcases validateType_cases R t v with ⟨w, hw⟩ | hno
      · obtain ⟨p, hp, hbad⟩ := h
        have : ∃ p ∈ ts.zip vs, ∀ w, ¬ Passes R p.1 p.2 w := by
          simp only [List.zip_cons_cons, List.mem_cons] at hp
          rcases hp with rfl | hp
          · exact absurd hw (hbad w)
          · exact ⟨p, hp, hbad⟩
        obtain ⟨t', ty, he⟩ := ih (by simpa using hl) this
        refine ⟨t', ty, ?_⟩
        rw [validateType_passes hw, pure_bind, he]
        rfl
      · refine ⟨t, R.ty v, ?_⟩
        rw [validateType_bad hno]
        rfl

theorem validateAll_cases {ts : List GoTy} {vs : List W} (hl : vs.length = ts.length) :
    (∃ ws, PassAll R ts vs ws) ∨ ∃ p ∈ ts.zip vs, ∀ w, ¬ Passes R p.1 p.2 w := by
  induction vs generalizing ts with
  | nil => cases ts with
    | nil => exact .inl ⟨[], .nil⟩
    | cons => simp at hl
  | cons v vs ih =>
    cases ts with
    | nil => simp at hl
    | cons t ts =>
      rcases validateType_cases R t v with ⟨w, hw⟩ | hno
      · rcases ih (ts := ts) (by simpa using hl) with ⟨ws, h⟩ | ⟨p, hp, h⟩
        · exact .inl ⟨_, .cons hw h⟩
        · exact .inr ⟨p, .tail _ hp, h⟩
      · exact .inr ⟨(t, v), .head _, hno⟩

theorem validateArgs_bad {fn : GoFn (Go Str (Eng I τ) (IPanic E X)) W} {vs : List W}
    (hl : vs.length = (paramTypes fn vs.length).length)
    (h : ∃ p ∈ (paramTypes fn vs.length).zip vs, ∀ w, ¬ Passes R p.1 p.2 w) :
    ∃ t ty, (validateArgs R fn.ins fn.rest (vs.map some) : Code E X I τ _) = pure (.error (.type_ t ty)) := by
  unfold validateArgs
  unfold paramTypes at h hl
  cases hr : fn.rest with
  | none => rw [hr] at h hl; exact validateAll_bad hl h
  | some t =>
    rw [hr] at h hl
    dsimp only at h hl ⊢
    have hle : fn.ins.length ≤ vs.length := by simp at hl; omega
    rw [← List.map_drop, List.length_map]
    have hl2 : (vs.drop fn.ins.length).length = (List.replicate (vs.length - fn.ins.length) t).length := by simp
    rcases validateAll_cases (R := R) hl2 with ⟨ws, hw⟩ | hbad
    · rw [validateAll_passes hw, pure_bind]
      dsimp only
      rw [← List.map_take]
      have hl1 : (vs.take fn.ins.length).length = fn.ins.length := by simp [hle]
      obtain ⟨t', ty, he⟩ := validateAll_bad (E := E) (X := X) (I := I) (τ := τ) (R := R) hl1 (by
        obtain ⟨p, hp, hno⟩ := h
        refine ⟨p, ?_, hno⟩
        rw [← List.take_append_drop fn.ins.length vs, List.zip_append (by rw [hl1]), List.mem_append] at hp
        rcases hp with hp | hp
        · exact hp
        · exfalso
          have : ∀ {ts : List GoTy} {vs ws : List W}, PassAll R ts vs ws → ∀ p ∈ ts.zip vs, ∃ w, Passes R p.1 p.2 w := by
            intro ts vs ws h
            induction h with
            | nil => intro p hp; simp at hp
            | cons h1 _ ih =>
              intro p hp
              simp only [List.zip_cons_cons, List.mem_cons] at hp
              rcases hp with rfl | hp
              · exact ⟨_, h1⟩
              · exact ih p hp
          rw [List.take_append_drop] at hp
          obtain ⟨w, hw⟩ := this hw p hp
          exact hno w hw)
      exact ⟨t', ty, by rw [he]; rfl⟩
    · obtain ⟨t', ty, he⟩ := validateAll_bad (E := E) (X := X) (I := I) (τ := τ) hl2 hbad
      exact ⟨t', ty, by rw [he]; rfl⟩

theorem popArgs_run (k : SliceStack τ T W E) {rest args : List T} {s : St (Eng I τ)} (hs : k.get s.u.u = rest ++ args) :
    (k.iface.popArgs args.length : Code E X I τ _).run f m s =
      some (.ok (some ((args.map k.view).map some)) { s with u := s.u.onStack k (fun _ => rest) }) := by
  simp only [SliceStack.iface]
  rw [Go.bind_ok Go.run_get, hs, if_pos (by simp), Go.bind_ok (Go.run_modify _)]
  simp only [Go.run_pure, Eng.onStack, hs]
  have h1 : (rest ++ args).length - args.length = rest.length := by simp
  rw [h1, List.drop_left, List.take_left, List.map_map]
  rfl

/-- `doCall` on a stack with enough values. -/
theorem doCall_run (k : SliceStack τ T W E) (fn : GoFn (Go Str (Eng I τ) (IPanic E X)) W) {rest args : List T} {ws : List W}
    {s : St (Eng I τ)} (hs : k.get s.u.u = rest ++ args) (hp : PassAll R (paramTypes fn args.length) (args.map k.view) ws)
    (hc : CanPass R (paramTypes fn args.length) ws) :
    (doCall R k.iface fn args.length).run f m s =
      (do match ← k.push (← fn.body ws) with
          | none => pure none
          | some e => pure (some (.ret e)) : Code E X I τ _).run f m { s with u := s.u.onStack k (fun _ => rest) } := by
  have hl := hp.length
  rw [List.length_map] at hl
  have hwl : ws.length = args.length := by omega
  unfold doCall
  by_cases h0 : args.length > 0
  · dsimp only
    rw [if_pos h0, Go.bind_ok (popArgs_run k hs)]
    dsimp only
    rw [validateArgs_passes (by rw [List.length_map]; exact hp), pure_bind]
    dsimp only
    rw [reflectCall_ok (by rw [hwl]; omega) (by rw [hwl]; exact hc)]
    rfl
  · dsimp only
    rw [if_neg h0]
    have ha : args = [] := List.eq_nil_of_length_eq_zero (by omega)
    have hw : ws = [] := List.eq_nil_of_length_eq_zero (by omega)
    subst ha hw
    have : reflectCall R fn [] = fn.body [] := reflectCall_ok (ws := []) (by simpa using hl.2) (by intro p hp; simp at hp)
    rw [this]
    have he : (s.u.onStack k (fun _ => rest)) = s.u := by
      simp only [Eng.onStack]
      rw [List.append_nil] at hs
      rw [← hs, k.set_get]
    rw [he]
    rfl

theorem call_accepts {stk : StackI (Go Str (Eng I τ) (IPanic E X)) E W} {fn : GoFn (Go Str (Eng I τ) (IPanic E X)) W} {n : Nat}
    (h : Accepts fn n) : call R stk fn n = doCall R stk fn n := by
  unfold Accepts at h
  unfold call
  dsimp only
  cases hr : fn.rest with
  | none =>
    rw [hr] at h
    dsimp only at h ⊢
    rw [if_neg (by omega), Int.toNat_natCast]
  | some t =>
    rw [hr] at h
    dsimp only at h ⊢
    rw [if_neg (by omega), Int.toNat_natCast]

theorem accepts_length {fn : GoFn (Go Str (Eng I τ) (IPanic E X)) W} {n : Nat} (h : Accepts fn n) :
    (paramTypes fn n).length = n := by
  unfold Accepts at h
  unfold paramTypes
  cases hr : fn.rest with
  | none =>
    rw [hr] at h
    dsimp only at h ⊢
    omega
  | some t =>
    rw [hr] at h
    dsimp only at h ⊢
    simp
    omega

end Tpl
