import Verif.VisionBatch
import Verif.ParallelForProps

/-! Image ops on a batch (C137). -/
namespace Verif.VisionBatch

open Verif.ParallelFor (Task Chain St run init waitBulk allFinished seqMap seqResult inv_run inv_init result_of_inv)

theorem fill_chain {step : Nat} (hs : 0 < step) {rest : Nat → List Task} {e : Nat} :
    ∀ {count pos : Nat}, Chain (pos + step * count) (rest (pos + step * count)) e → Chain pos (fill step count pos rest) e
  | 0, pos, h => by simpa [fill] using h
  | count + 1, pos, h => by
    refine ⟨rfl, hs, fill_chain hs ?_⟩
    have : pos + step + step * count = pos + step * (count + 1) := by rw [Nat.mul_succ]; omega
    rwa [this]

theorem fill_length {step : Nat} {rest : Nat → List Task} {l : Nat} (h : ∀ p, (rest p).length = l) :
    ∀ {count pos : Nat}, (fill step count pos rest).length = count + l
  | 0, pos => by simp [fill, h]
  | count + 1, pos => by simp [fill, fill_length h]; omega

theorem fill_mem {step : Nat} {rest : Nat → List Task} {P : Nat → Prop} (h : ∀ p, ∀ t ∈ rest p, P t.2) (hs : P step) :
    ∀ {count pos : Nat}, ∀ t ∈ fill step count pos rest, P t.2
  | 0, pos, t, ht => h pos t (by simpa [fill] using ht)
  | count + 1, pos, t, ht => by
    simp only [fill, List.mem_cons] at ht
    rcases ht with rfl | ht
    · exact hs
    · exact fill_mem h hs t ht

/-- C137: the tasks are consecutive non-empty parts of the batch that cover it, as many as there are threads or images,
and their sizes differ by one at most. -/
theorem tasks_partition (len threads : Nat) (ht : 0 < threads) :
    Chain 0 (tasks len threads) len ∧ (tasks len threads).length = min len threads ∧
    ∀ t ∈ tasks len threads, ∀ u ∈ tasks len threads, t.2 ≤ u.2 + 1 := by
  unfold tasks
  split
  · rename_i h
    refine ⟨fill_chain (by omega) (by simp [Chain]), ?_, ?_⟩
    · rw [fill_length (l := 0) (by simp)]; omega
    · intro t hm u hu
      have a := fill_mem (P := fun x => x = 1) (by simp) rfl t hm
      have b := fill_mem (P := fun x => x = 1) (by simp) rfl u hu
      omega
  · rename_i h
    have hstep : 0 < len / threads := Nat.div_pos (by omega) ht
    have hrem : len % threads < threads := Nat.mod_lt _ ht
    have hdm := Nat.div_add_mod len threads
    dsimp only
    refine ⟨?_, ?_, ?_⟩
    · refine fill_chain (by omega) (fill_chain hstep ?_)
      have e : (len / threads + 1) * (len % threads) + len / threads * (threads - len % threads) = len := by
        rw [Nat.add_mul, Nat.one_mul, Nat.add_right_comm, ← Nat.mul_add]
        rw [show len % threads + (threads - len % threads) = threads by omega, Nat.mul_comm]
        exact hdm
      simp only [Chain]
      omega
    · rw [fill_length (l := threads - len % threads) (fun p => by rw [fill_length (l := 0) (by simp)]; rfl)]
      omega
    · intro t hm u hu
      have key : ∀ t ∈ fill (len / threads + 1) (len % threads) 0
          (fun pos => fill (len / threads) (threads - len % threads) pos fun _ => []),
          t.2 = len / threads ∨ t.2 = len / threads + 1 :=
        fill_mem (P := fun x => x = len / threads ∨ x = len / threads + 1)
          (fun p => fill_mem (P := fun x => x = len / threads ∨ x = len / threads + 1) (rest := fun _ => []) (by simp) (.inl rfl))
          (.inr rfl)
      have a := key t hm
      have b := key u hu
      omega

variable {α β ε : Type}

/-- C137: whatever the number of threads and the order of the steps, the batch gives the results of the images one by
one, in their order, or the exception of the first image that fails. -/
theorem batch_eq_sequential (op : α → Except ε β) (inputs : List α) (threads : Nat) (ht : 0 < threads)
    (sched : List Nat) (hf : allFinished (run op inputs (init (tasks inputs.length threads) inputs.length) sched)) :
    waitBulk (run op inputs (init (tasks inputs.length threads) inputs.length) sched) = seqResult op inputs := by
  have hc := (tasks_partition inputs.length threads ht).1
  exact result_of_inv op inputs _ hc _ (inv_run op inputs _ hc sched _ (inv_init op inputs _)) hf

theorem seqMap_total {γ : Type} (op : α → Except ε γ) (f : α → γ) (h : ∀ x, op x = .ok (f x)) :
    ∀ l, seqMap op l = .ok (l.map f)
  | [] => rfl
  | x :: xs => by simp [seqMap, h, seqMap_total op f h xs]

/-- C137: decoding without exceptions on the CPU never raises; an image that fails is `None` with the flag false, and
the others are what they are on their own. -/
theorem decode_cpu_flags (op : α → Except ε β) (inputs : List α) (threads : Nat) (ht : 0 < threads) (sched : List Nat)
    (hf : allFinished (run (decodeFlagCpu op) inputs (init (tasks inputs.length threads) inputs.length) sched)) :
    ∃ out, waitBulk (run (decodeFlagCpu op) inputs (init (tasks inputs.length threads) inputs.length) sched) = .ok out ∧
      out.length = inputs.length ∧
      ∀ (k : Nat) (x : α), inputs[k]? = some x →
        (∀ y, op x = .ok y → out[k]? = some (some (some y, true))) ∧
        (∀ e, op x = .error e → out[k]? = some (some (none, false))) := by
  have tot := seqMap_total (decodeFlagCpu op)
    (fun x => match op x with | .ok y => (some y, true) | .error _ => (none, false))
    (fun x => by unfold decodeFlagCpu; cases op x <;> rfl) inputs
  rw [batch_eq_sequential _ _ _ ht _ hf]
  simp only [seqResult, tot]
  refine ⟨_, rfl, by simp, ?_⟩
  intro k x hx
  constructor
  · intro y hy; simp [hx, hy]
  · intro e he; simp [hx, he]

/-- C137: the same on the GPU, with a blank image in place of one that fails. -/
theorem decode_gpu_flags (blank : β) (op : α → Except ε β) (inputs : List α) (threads : Nat) (ht : 0 < threads)
    (sched : List Nat)
    (hf : allFinished (run (decodeFlagGpu blank op) inputs (init (tasks inputs.length threads) inputs.length) sched)) :
    ∃ out, waitBulk (run (decodeFlagGpu blank op) inputs (init (tasks inputs.length threads) inputs.length) sched) =
        .ok out ∧
      out.length = inputs.length ∧
      ∀ (k : Nat) (x : α), inputs[k]? = some x →
        (∀ y, op x = .ok y → out[k]? = some (some (y, true))) ∧
        (∀ e, op x = .error e → out[k]? = some (some (blank, false))) := by
  have tot := seqMap_total (decodeFlagGpu blank op)
    (fun x => match op x with | .ok y => (y, true) | .error _ => (blank, false))
    (fun x => by unfold decodeFlagGpu; cases op x <;> rfl) inputs
  rw [batch_eq_sequential _ _ _ ht _ hf]
  simp only [seqResult, tot]
  refine ⟨_, rfl, by simp, ?_⟩
  intro k x hx
  constructor
  · intro y hy; simp [hx, hy]
  · intro e he; simp [hx, he]

theorem seqMap_raises (op : α → Except ε β) : ∀ {l : List α} {x : α} {e : ε}, x ∈ l → op x = .error e →
    ∃ e', seqMap op l = .error e'
  | y :: l, x, e, hm, he => by
    unfold seqMap
    cases hy : op y with
    | error e' => exact ⟨e', rfl⟩
    | ok z =>
      rcases List.mem_cons.1 hm with rfl | hm
      · rw [hy] at he; cases he
      · obtain ⟨e', h⟩ := seqMap_raises op hm he
        exact ⟨e', by simp [h]⟩

/-- C137 fails for encoding: an image that makes the encoder raise makes the whole batch raise, also in the op that is
to report failures with flags, as its tasks catch nothing. -/
theorem encode_flags_refuted (op : α → Except ε (Bool × β)) (inputs : List α) (threads : Nat) (ht : 0 < threads)
    (sched : List Nat) (hf : allFinished (run op inputs (init (tasks inputs.length threads) inputs.length) sched))
    {x : α} {e : ε} (hm : x ∈ inputs) (he : op x = .error e) :
    ∃ e', waitBulk (run op inputs (init (tasks inputs.length threads) inputs.length) sched) = .error e' := by
  rw [batch_eq_sequential op inputs threads ht sched hf]
  obtain ⟨e', h⟩ := seqMap_raises op hm he
  exact ⟨e', by simp [seqResult, h]⟩

/-- C137: the encoder without flags returns all images, or fails with the index of the first that was not encoded. -/
theorem encode_check (fail : Nat → ε) : ∀ (l : List (Bool × β)) (i : Nat),
    ((∀ p ∈ l, p.1 = true) → encodeCheck fail i l = .ok (l.map Prod.snd)) ∧
    (∀ (k : Nat) (y : β), l[k]? = some (false, y) → (∀ j, j < k → ∃ z, l[j]? = some (true, z)) →
      encodeCheck fail i l = .error (fail (i + k)))
  | [], i => by simp [encodeCheck]
  | (b, y) :: r, i => by
    have ih := encode_check fail r (i + 1)
    constructor
    · intro h
      have hb : b = true := h (b, y) (by simp)
      rw [encodeCheck, if_pos hb, ih.1 (fun p hp => h p (by simp [hp]))]
      rfl
    · intro k z hk hj
      cases k with
      | zero =>
        simp only [List.getElem?_cons_zero, Option.some.injEq, Prod.mk.injEq] at hk
        simp [encodeCheck, hk.1]
      | succ k =>
        obtain ⟨w, hw⟩ := hj 0 (by omega)
        simp only [List.getElem?_cons_zero, Option.some.injEq, Prod.mk.injEq] at hw
        have e := ih.2 k z (by simpa using hk) (fun j hjk => by simpa using hj (j + 1) (by omega))
        simp only [encodeCheck, hw.1, if_true, e]
        rw [show i + 1 + k = i + (k + 1) by omega]

/-- C137: from two bytes on the test for JPEG stays within the data and looks at the first and last two bytes. -/
theorem jpeg_partial (data : List Nat) (h : 2 ≤ data.length) :
    isJpeg data = some (decide (4 ≤ data.length ∧ data[0]? = some 0xff ∧ data[1]? = some 0xd8 ∧
      data[data.length - 1]? = some 0xd9 ∧ data[data.length - 2]? = some 0xff)) := by
  have g : ∀ k, k < data.length → ∃ v, data[k]? = some v := fun k hk => ⟨_, List.getElem?_eq_getElem hk⟩
  obtain ⟨a, ha⟩ := g 0 (by omega)
  obtain ⟨b, hb⟩ := g 1 (by omega)
  obtain ⟨y, hy⟩ := g (data.length - 1) (by omega)
  obtain ⟨x, hx⟩ := g (data.length - 2) (by omega)
  simp only [isJpeg, ha, hb, hy, hx, Option.some.injEq]
  by_cases h1 : a = 0xff <;> by_cases h3 : b = 0xd8 <;> by_cases h4 : 4 ≤ data.length <;> simp [h1, h3, h4]

/-- C137 fails on the GPU for an empty image, or the single byte 0xff: the test reads beside the data, which no
`catch` helps against. -/
theorem jpeg_refuted (data : List Nat) : isJpeg data = none ↔ data = [] ∨ data = [0xff] := by
  constructor
  · intro h
    match data, h with
    | [], _ => exact .inl rfl
    | [a], h =>
      by_cases e : a = 0xff
      · exact .inr (by rw [e])
      · simp [isJpeg, e] at h
    | a :: b :: r, h =>
      rw [jpeg_partial _ (by simp)] at h; cases h
  · rintro (rfl | rfl) <;> decide

/-- Seven images on three threads, and two on three. -/
example : tasks 7 3 = [(0, 3), (3, 2), (5, 2)] ∧ tasks 2 3 = [(0, 1), (1, 1)] ∧ tasks 5 1 = [(0, 5)] := by decide

/-- A small file that is a JPEG by this test, and one that is cut. -/
example : isJpeg [0xff, 0xd8, 0, 0xff, 0xd9] = some true ∧ isJpeg [0xff, 0xd8, 0, 0xff] = some false ∧
    isJpeg [0xff, 0xd8] = some false := by decide

/-- Two threads, the second image of three is bad. -/
example :
    let op : Nat → Except String Nat := fun x => if x = 0 then .error "bad" else .ok (10 * x)
    waitBulk (run (decodeFlagCpu op) [1, 0, 3] (init (tasks 3 2) 3) [1, 0, 0]) =
      .ok [some (some 10, true), some (none, false), some (some 30, true)] := by
  rfl

end Verif.VisionBatch
