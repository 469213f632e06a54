import Verif.MsgpackRoundtrip
import Mathlib.Tactic.IntervalCases

/-!
# msgpack: integers are written in the shortest form (C46)
-/

namespace Verif.Msgpack

/-- Header bytes lead to one of the 35 cases. -/
theorem header_cs : ∀ b < 256, (match header b with | .trail cs _ => decide (cs < 35) | _ => true) = true := by
  decide +kernel

theorem header_push_int : ∀ b < 256,
    (match header b with | .push (.int i) => decide (-32 ≤ i ∧ i ≤ 127) | _ => true) = true := by
  decide +kernel

theorem toS_range (k n : Nat) (hk : 1 ≤ k) (hn : n < 2 ^ k) :
    -2 ^ (k - 1) ≤ toS k n ∧ toS k n < 2 ^ (k - 1) := by
  obtain ⟨j, rfl⟩ : ∃ j, k = j + 1 := ⟨k - 1, by omega⟩
  unfold toS
  simp only [Nat.add_sub_cancel]
  have h2 : (2 : Int) ^ (j + 1) = 2 * 2 ^ j := by rw [Int.pow_succ]; omega
  have h3 : (2 : Nat) ^ (j + 1) = 2 * 2 ^ j := by rw [Nat.pow_succ]; omega
  have h4 : ((2 ^ j : Nat) : Int) = (2 : Int) ^ j := by simp
  rw [h2, ← h4]
  split <;> omega

/-- The number of bytes after the header and the range of the integers they can stand for. -/
def Fits (k : Nat) (i : Int) : Prop :=
  (k = 1 ∧ -128 ≤ i ∧ i < 256) ∨ (k = 2 ∧ -32768 ≤ i ∧ i < 65536) ∨
    (k = 4 ∧ -2147483648 ≤ i ∧ i < 4294967296) ∨ k = 8

theorem action_num_int (E : Env) (cs k x : Nat) (f : Nat → Val) (i : Int) (hcs : cs < 35)
    (ha : action E cs = .num k f) (hx : x < 256 ^ k) (hf : f x = .int i) : Fits k i := by
  unfold Fits
  interval_cases cs <;> simp [action, acsRaw, acsExt, acsBin] at ha <;>
    obtain ⟨rfl, rfl⟩ := ha <;> simp at hf <;> try omega
  · have := toS_range 8 x (by omega) (by simpa using hx)
    simp at this; omega
  · have := toS_range 16 x (by omega) (by simpa using hx)
    simp at this; omega
  · have := toS_range 32 x (by omega) (by simpa using hx)
    simp at this; omega

theorem rawVal_push {b r rest : List UInt8} {v : Val} (h : rawVal b r = .push v rest) : ∃ s, v = .str s := by
  unfold rawVal at h
  split at h
  · injection h with h1 _; exact ⟨_, h1.symm⟩
  · simp at h

theorem next_push {p : List UInt8} {k : List UInt8 → Dec} {v : Val} {rest : List UInt8}
    (h : next p k = .push v rest) : ∃ r, k r = .push v rest := by
  unfold next at h
  split at h
  · simp at h
  · exact ⟨_, h⟩

theorem value_push {acs t : Nat} {n p rest : List UInt8} {v : Val} (h : value acs t n p = .push v rest) :
    (∃ b, v = .bytes b) ∨ ∃ s, v = .str s := by
  unfold value region at h
  split at h
  · split at h
    · simp at h
    · obtain ⟨r, h⟩ := next_push h
      injection h with h1 _
      exact .inl ⟨_, h1.symm⟩
  · split at h
    · split at h
      · simp at h
      · obtain ⟨r, h⟩ := next_push h
        exact .inr (rawVal_push h)
    · split at h
      · simp at h
      · obtain ⟨r, h⟩ := next_push h
        simp at h

/-- What an encoding of an integer looks like. -/
theorem decode_int (E : Env) (bs : List UInt8) (i : Int) (h : decode E bs = .push (.int i) []) :
    (bs.length = 1 ∧ -32 ≤ i ∧ i ≤ 127) ∨ Fits (bs.length - 1) i ∧ 1 ≤ bs.length := by
  unfold decode at h
  split at h
  · simp at h
  · rename_i b r
    have hp := header_push_int b.toNat b.toNat_lt
    have hc := header_cs b.toNat b.toNat_lt
    split at h
    · rename_i v hv
      injection h with h1 h2
      subst h1 h2
      rw [hv] at hp
      simp at hp
      exact .inl ⟨rfl, hp⟩
    · simp at h
    · rename_i cs t ht
      rw [ht] at hc
      simp at hc
      right
      refine ⟨?_, by simp⟩
      unfold fixedTrail at h
      split at h
      · simp at h
      · rename_i hlen
        dsimp only at h
        rcases header_trail E b cs t ht with ⟨acs, k, ha, rfl, _⟩ | ⟨k, f, ha, rfl, hk⟩ | ⟨m, k, ha, _⟩ |
          ⟨acs, ha, _⟩
        · rw [ha] at h
          dsimp only at h
          split at h
          · simp at h
          · unfold again at h
            split at h
            · rcases value_push h with ⟨_, h⟩ | ⟨_, h⟩ <;> simp at h
            · split at h
              · simp at h
              · split at h
                · simp at h
                · rcases value_push h with ⟨_, h⟩ | ⟨_, h⟩ <;> simp at h
        · rw [ha] at h
          dsimp only at h
          rw [if_neg hlen] at h
          unfold next at h
          split at h
          · simp at h
          · rename_i c r' hd
            injection h with h1 h2
            subst h2
            have hl := congrArg List.length hd
            simp at hl
            have hx := loadBE_lt (r.take t)
            rw [List.length_take, Nat.min_eq_left (by omega)] at hx
            have := action_num_int E cs t _ f i hc ha hx h1
            rw [show (b :: r).length - 1 = t by simp; omega]
            exact this
        · rw [ha] at h
          dsimp only at h
          split at h
          · simp at h
          · obtain ⟨_, h⟩ := next_push h
            simp at h
        · rw [ha] at h
          dsimp only at h
          rcases value_push h with ⟨_, h⟩ | ⟨_, h⟩ <;> simp at h
    · obtain ⟨_, h⟩ := rawVal_push h
      simp at h
    · simp at h

/-- A finished container is not an integer, and an unfinished one leaves the stack non-empty. -/
theorem push_stack (E : Env) (ul : Bool) : ∀ (st : List Frame) (v : Val), st ≠ [] →
    (∀ i, push E ul st v ≠ .finish (.int i)) ∧ ∀ st' o, push E ul st v = .again st' o → st' ≠ []
  | [], _, h => absurd rfl h
  | .arr size items :: st, v, _ => by
    rw [push]
    split
    · cases st with
      | nil => rw [push]; unfold mkArr; constructor <;> intros <;> (try split) <;> simp_all
      | cons f st => exact push_stack E ul (f :: st) _ (by simp)
    · constructor
      · simp
      · intro st' o h; injection h with h _; subst h; simp
  | .map size count entries none :: st, v, _ => by
    rw [push]
    constructor
    · simp
    · intro st' o h; injection h with h _; subst h; simp
  | .map size count entries (some k) :: st, v, _ => by
    rw [push]
    split
    · simp
    · split
      · cases st with
        | nil => rw [push]; simp
        | cons f st => exact push_stack E ul (f :: st) _ (by simp)
      · constructor
        · simp
        · intro st' o h; injection h with h _; subst h; simp

theorem extRes_cases (E : Env) (obj : Val) (tc : UInt8) (pos : List UInt8) (len : Nat) (k : Val → Res) :
    (∃ v, extRes E obj tc pos len k = k v ∧
      ((∃ s, v = .set s) ∨ (∃ c b l s d, v = .ndarray c b l s d) ∨ ∃ x, stampVal x obj = some v)) ∨
    ∀ v r, extRes E obj tc pos len k ≠ .done v r := by
  unfold extRes
  split
  · split
    · simp
    · split
      · simp
      · split
        · simp
        · rename_i h; exact .inl ⟨_, rfl, .inr (.inr ⟨_, h⟩)⟩
  · split
    · split
      · simp
      · unfold extSet
        split <;> try simp
        split
        · simp
        · exact .inl ⟨_, rfl, .inl ⟨_, rfl⟩⟩
    · split
      · split
        · simp
        · split
          · simp
          · rename_i h
            refine .inl ⟨_, rfl, .inr (.inl ?_)⟩
            unfold unpackNd at h
            dsimp only at h
            split at h
            · simp at h
            · split at h
              · simp at h
              · split at h
                · simp at h
                · split at h
                  · simp at h
                  · split at h
                    · injection h with h; exact ⟨_, _, _, _, _, h.symm⟩
                    · simp at h
      · simp

/-- Inside a container the result is never an integer. -/
theorem run_stack (E : Env) (ul : Bool) (st : List Frame) (obj : Val) (p : List UInt8) :
    st ≠ [] → ∀ i r, run E ul st obj p ≠ .done (.int i) r := by
  refine run_ind E (fun ul st obj p => st ≠ [] → ∀ i r, run E ul st obj p ≠ .done (.int i) r) ?_ ul st obj p
  intro ul st obj p ih hst i r
  have hb := decode_below E p
  have hc : ∀ v rest, rest.length < p.length → cont E ul st v rest ≠ .done (.int i) r := by
    intro v rest hr
    have h := push_stack E ul st v hst
    unfold cont
    split
    · rename_i v' hp
      intro hd
      injection hd with hd _
      subst hd
      exact h.1 i hp
    · rename_i st' o hp
      exact ih _ _ _ _ hr (h.2 _ _ hp) i r
    · simp
  rw [run_eq]
  cases hd : decode E p <;> rw [hd] at hb <;> simp only [Dec.Below] at hb <;> dsimp only
  case out => simp
  case fmt => simp
  case failed => simp
  case oob => simp
  case push v rest => exact hc _ _ hb
  case start m n rest =>
    split
    · simp
    · split
      · exact hc _ _ hb
      · split <;> exact ih _ _ _ _ hb (by simp) i r
  case ext tc pos len rest =>
    rcases extRes_cases E obj tc pos len fun v => cont E ul st v rest with ⟨v, h, _⟩ | h
    · rw [h]; exact hc _ _ hb.2
    · exact h _ _

/-- **C46.**  No byte string that loads as the integer is shorter than the one that is written. -/
theorem packInt_minimal (E : Env) (i : Int) (bs : List UInt8) (h : loads E bs = .ok (.int i)) :
    (packInt i).length ≤ bs.length := by
  have hd : decode E bs = .push (.int i) [] := by
    have hr : run E true [] .nil bs = .done (.int i) [] := by
      unfold loads at h
      split at h <;> simp at h
      subst h; assumption
    rw [run_eq] at hr
    split at hr <;> try simp at hr
    · rename_i v rest hv
      simp [cont, push] at hr
      rw [hv, hr.1, hr.2]
    · split at hr
      · split at hr <;> simp [cont, push, mkArr] at hr
      · split at hr
        · exact absurd hr (run_stack E _ _ _ _ (by simp) _ _)
        · exact absurd hr (run_stack E _ _ _ _ (by simp) _ _)
    · rename_i tc pos len rest _
      rcases extRes_cases E .nil tc pos len fun v => cont E true [] v rest with ⟨v, h1, h2⟩ | h1
      · rw [h1] at hr
        simp [cont, push] at hr
        obtain ⟨rfl, _⟩ := hr
        rcases h2 with ⟨s, h2⟩ | ⟨_, _, _, _, _, h2⟩ | ⟨x, h2⟩ <;> simp [stampVal] at h2
      · exact absurd hr (h1 _ _)
  have h1 := decode_int E bs i hd
  unfold Fits at h1
  unfold packInt
  repeat' split
  all_goals simp [be_length]
  all_goals omega

example : (packInt (-32768)).length = 3 ∧ (packInt (-32769)).length = 5 ∧ (packInt 255).length = 2 := by
  decide +kernel

example : hashable (.tuple [.int 1, .list []]) = false := by decide +kernel

end Verif.Msgpack
