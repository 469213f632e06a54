import Verif.BundleArgsProps
/-
Files among the arguments of a constructor are found, copied and completed wherever they are nested.
-/

namespace Verif.BundleArgs

/-- A string that names a file: it exists, and is not made of dots and slashes only. -/
def names (isFile : Str → Bool) (s : Str) : Bool := !(s.all (fun c => c == '.' || c == '/')) && isFile s

mutual
/-- Every name of a file, in lists and dicts of any depth, is replaced; nothing else is. -/
def mapFiles (isFile : Str → Bool) (g : Str → Str) : Val → Val
  | .str s => .str (if names isFile s then g s else s)
  | .list xs => .list (mapFilesL isFile g xs)
  | .dict ks vs => .dict ks (mapFilesL isFile g vs)
  | .other n => .other n
def mapFilesL (isFile : Str → Bool) (g : Str → Str) : List Val → List Val
  | [] => []
  | v :: r => mapFiles isFile g v :: mapFilesL isFile g r
end

/-- The same for all arguments. -/
def mapArgs (isFile : Str → Bool) (g : Str → Str) (args : List (Str × Val)) : List (Str × Val) :=
  args.map fun p => (p.1, mapFiles isFile g p.2)

mutual
/-- Keys of dicts are different non-empty strings without dots and opening brackets. -/
def Good : Val → Prop
  | .str _ => True
  | .list xs => GoodL xs
  | .dict ks vs => ks.length = vs.length ∧ ks.Nodup ∧ (∀ k ∈ ks, ∃ s, k = .str s ∧ GoodKey s) ∧ GoodL vs
  | .other _ => True
def GoodL : List Val → Prop
  | [] => True
  | v :: r => Good v ∧ GoodL r
end

/-- Names of parameters are different and are identifiers. -/
def GoodArgs (args : List (Str × Val)) : Prop :=
  (args.map Prod.fst).Nodup ∧ (∀ p ∈ args, ∀ c ∈ p.1, inKey c = true) ∧ ∀ p ∈ args, Good p.2

mutual
/-- Paths of files, as tokens. -/
def paths (isFile : Str → Bool) : Val → List (List Tok)
  | .str s => if names isFile s then [[]] else []
  | .list xs => pathsL isFile 0 xs
  | .dict ks vs => pathsD isFile ks vs
  | .other _ => []
def pathsL (isFile : Str → Bool) (i : Nat) : List Val → List (List Tok)
  | [] => []
  | v :: r => (paths isFile v).map (.idx i :: ·) ++ pathsL isFile (i + 1) r
def pathsD (isFile : Str → Bool) : List Key → List Val → List (List Tok)
  | k :: ks, v :: vs => (paths isFile v).map (.key k.format :: ·) ++ pathsD isFile ks vs
  | _, _ => []
end

mutual
theorem guess_paths (isFile : Str → Bool) : ∀ (v : Val) (p : Str),
    guess isFile p v = (paths isFile v).map (p ++ render ·)
  | .str s, p => by
    simp only [guess, paths]
    by_cases h1 : s.all (fun c => c == '.' || c == '/') = true
    · have e : names isFile s = false := by unfold names; rw [h1]; rfl
      rw [if_pos h1, if_neg (by rw [e]; exact Bool.false_ne_true)]; rfl
    · by_cases h2 : isFile s = true
      · have e : names isFile s = true := by unfold names; rw [Bool.eq_false_iff.2 h1, h2]; rfl
        rw [if_neg h1, if_pos h2, if_pos e]
        show [p] = [p ++ []]
        rw [List.append_nil]
      · have e : names isFile s = false := by
          unfold names; rw [Bool.eq_false_iff.2 h1, Bool.eq_false_iff.2 h2]; rfl
        rw [if_neg h1, if_neg h2, if_neg (by rw [e]; exact Bool.false_ne_true)]; rfl
  | .list xs, p => by
    simp only [guess, paths]
    exact guessL_paths isFile xs p 0
  | .dict ks vs, p => by
    simp only [guess, paths]
    exact guessD_paths isFile vs ks p
  | .other _, p => by simp only [guess, paths, List.map_nil]
theorem guessL_paths (isFile : Str → Bool) : ∀ (xs : List Val) (p : Str) (i : Nat),
    guessList isFile p i xs = (pathsL isFile i xs).map (p ++ render ·)
  | [], p, i => by simp only [guessList, pathsL, List.map_nil]
  | v :: r, p, i => by
    simp only [guessList, pathsL, List.map_append, List.map_map]
    rw [guess_paths isFile v, guessL_paths isFile r]
    congr 1
    refine List.map_congr_left fun ts _ => ?_
    simp [render, Tok.text]
theorem guessD_paths (isFile : Str → Bool) : ∀ (vs : List Val) (ks : List Key) (p : Str),
    guessDict isFile p ks vs = (pathsD isFile ks vs).map (p ++ render ·)
  | [], ks, p => by cases ks <;> simp only [guessDict, pathsD, List.map_nil]
  | v :: vs, [], p => by simp only [guessDict, pathsD, List.map_nil]
  | v :: vs, k :: ks, p => by
    simp only [guessDict, pathsD, List.map_append, List.map_map]
    rw [guess_paths isFile v, guessD_paths isFile vs]
    congr 1
    refine List.map_congr_left fun ts _ => ?_
    simp [render, Tok.text]
end

mutual
theorem paths_good (isFile : Str → Bool) : ∀ v : Val, Good v → ∀ ts ∈ paths isFile v, GoodToks ts
  | .str s, _, ts, h => by
    simp only [paths] at h
    split at h
    · rw [List.mem_singleton] at h
      subst h
      intro k hk; cases hk
    · cases h
  | .list xs, hg, ts, h => by
    simp only [paths] at h
    simp only [Good] at hg
    exact pathsL_good isFile xs hg 0 ts h
  | .dict ks vs, hg, ts, h => by
    simp only [paths] at h
    simp only [Good] at hg
    exact pathsD_good isFile vs hg.2.2.2 ks hg.2.2.1 ts h
  | .other _, _, ts, h => by simp only [paths] at h; cases h
theorem pathsL_good (isFile : Str → Bool) : ∀ xs : List Val, GoodL xs → ∀ i, ∀ ts ∈ pathsL isFile i xs, GoodToks ts
  | [], _, i, ts, h => by simp only [pathsL] at h; cases h
  | v :: r, hg, i, ts, h => by
    simp only [pathsL] at h
    simp only [GoodL] at hg
    rcases List.mem_append.1 h with h | h
    · obtain ⟨ts', h', rfl⟩ := List.mem_map.1 h
      intro k hk
      rcases List.mem_cons.1 hk with e | hk
      · cases e
      · exact paths_good isFile v hg.1 ts' h' k hk
    · exact pathsL_good isFile r hg.2 _ ts h
theorem pathsD_good (isFile : Str → Bool) : ∀ vs : List Val, GoodL vs → ∀ ks : List Key,
    (∀ k ∈ ks, ∃ s, k = .str s ∧ GoodKey s) → ∀ ts ∈ pathsD isFile ks vs, GoodToks ts
  | [], _, ks, _, ts, h => by cases ks <;> (simp only [pathsD] at h; cases h)
  | v :: vs, _, [], _, ts, h => by simp only [pathsD] at h; cases h
  | v :: vs, hg, k :: ks, hk, ts, h => by
    simp only [pathsD] at h
    simp only [GoodL] at hg
    rcases List.mem_append.1 h with h | h
    · obtain ⟨ts', h', rfl⟩ := List.mem_map.1 h
      intro k' hk'
      rcases List.mem_cons.1 hk' with e | hk'
      · obtain ⟨s, rfl, hs⟩ := hk k (List.mem_cons_self ..)
        cases e
        exact hs
      · exact paths_good isFile v hg.1 ts' h' k' hk'
    · exact pathsD_good isFile vs hg.2 ks (fun k h => hk k (List.mem_cons_of_mem _ h)) ts h
end

/-! ### Replacing along many paths -/

theorem modList_mid (g : Val → Option Val) (done : List Val) (x : Val) (rest : List Val) :
    modList g done.length (done ++ x :: rest) = (g x).map fun y => done ++ y :: rest := by
  induction done with
  | nil => rfl
  | cons d done ih =>
    show (modList g done.length (done ++ x :: rest)).map (d :: ·) = _
    rw [ih]
    cases g x <;> rfl

theorem modDict_mid (g : Val → Option Val) (kd : List Key) (vd : List Val) (k : Key) (v : Val) (ks : List Key)
    (vs : List Val) (hl : kd.length = vd.length) (hk : k ∉ kd) :
    modDict g k (kd ++ k :: ks) (vd ++ v :: vs) = (g v).map fun y => vd ++ y :: vs := by
  induction kd generalizing vd with
  | nil =>
    cases vd with
    | nil => show (if k = k then _ else _) = _; rw [if_pos rfl]; rfl
    | cons d vd => cases hl
  | cons k' kd ih =>
    cases vd with
    | nil => cases hl
    | cons d vd =>
      show (if k' = k then _ else (modDict g k (kd ++ k :: ks) (vd ++ v :: vs)).map (d :: ·)) = _
      rw [if_neg (fun e : k' = k => hk (e ▸ List.mem_cons_self ..)),
        ih vd (Nat.succ.inj hl) (fun h => hk (List.mem_cons_of_mem _ h))]
      cases g v <;> rfl

theorem modArg_mid (g : Val → Option Val) (done : List (Str × Val)) (a : Str) (v : Val) (rest : List (Str × Val))
    (h : a ∉ done.map Prod.fst) :
    modArg g a (done ++ (a, v) :: rest) = (g v).map fun w => done ++ (a, w) :: rest := by
  induction done with
  | nil => show (if a = a then _ else _) = _; rw [if_pos rfl]; rfl
  | cons d done ih =>
    obtain ⟨b, u⟩ := d
    show (if b = a then _ else (modArg g a (done ++ (a, v) :: rest)).map ((b, u) :: ·)) = _
    rw [if_neg (fun e : b = a => h (e ▸ List.mem_cons_self ..)), ih (fun h' => h (List.mem_cons_of_mem _ h'))]
    cases g v <;> rfl

/-- Replacing along paths inside one part changes only this part. -/
theorem fold_inside {α β γ : Type} (F : β → α → Option β) (G : γ → α → Option γ) (wrap : γ → β)
    (ps : List α) (h : ∀ p ∈ ps, ∀ x, F (wrap x) p = (G x p).map wrap) (x : γ) :
    ps.foldlM F (wrap x) = (ps.foldlM G x).map wrap := by
  induction ps generalizing x with
  | nil => rfl
  | cons p r ih =>
    rw [List.foldlM_cons, List.foldlM_cons, h p (List.mem_cons_self ..)]
    cases hg : G x p with
    | none => rfl
    | some y => exact ih (fun q hq => h q (List.mem_cons_of_mem _ hq)) y

theorem mapFilesL_length (isFile : Str → Bool) (g : Str → Str) (l : List Val) :
    (mapFilesL isFile g l).length = l.length := by
  induction l with
  | nil => simp only [mapFilesL]
  | cons v r ih => simp only [mapFilesL, List.length_cons, ih]

mutual
theorem fold_val (isFile : Str → Bool) (f : Str → Option Str) (h0 g : Str → Str)
    (hf : ∀ s, names isFile s = true → f (h0 s) = some (g s)) : ∀ v : Val, Good v →
    (paths isFile v).foldlM (fun v p => modify f p v) (mapFiles isFile h0 v) = some (mapFiles isFile g v)
  | .str s, _ => by
    simp only [paths, mapFiles]
    by_cases h : names isFile s = true
    · rw [if_pos h, if_pos h, if_pos h, List.foldlM_cons]
      show ((f (h0 s)).map Val.str).bind _ = _
      rw [hf s h]
      rfl
    · rw [if_neg h, if_neg h, if_neg h]
      rfl
  | .list xs, hg => by
    simp only [paths, mapFiles]
    simp only [Good] at hg
    exact fold_list isFile f h0 g hf xs hg []
  | .dict ks vs, hg => by
    simp only [paths, mapFiles]
    simp only [Good] at hg
    exact fold_dict isFile f h0 g hf vs hg.2.2.2 ks hg.1 hg.2.2.1 [] [] rfl hg.2.1
  | .other n, _ => by simp only [paths, mapFiles]; rfl
theorem fold_list (isFile : Str → Bool) (f : Str → Option Str) (h0 g : Str → Str)
    (hf : ∀ s, names isFile s = true → f (h0 s) = some (g s)) : ∀ xs : List Val, GoodL xs → ∀ done : List Val,
    (pathsL isFile done.length xs).foldlM (fun v p => modify f p v) (.list (done ++ mapFilesL isFile h0 xs))
      = some (.list (done ++ mapFilesL isFile g xs))
  | [], _, done => by simp only [pathsL, mapFilesL]; rfl
  | v :: r, hg, done => by
    simp only [GoodL] at hg
    simp only [pathsL, mapFilesL]
    rw [List.foldlM_append, List.foldlM_map]
    rw [fold_inside (fun v p => modify f (.idx done.length :: p) v) (fun v p => modify f p v)
      (fun y => .list (done ++ y :: mapFilesL isFile h0 r))]
    · rw [fold_val isFile f h0 g hf v hg.1]
      have := fold_list isFile f h0 g hf r hg.2 (done ++ [mapFiles isFile g v])
      rw [List.length_append, List.append_assoc, List.append_assoc] at this
      exact this
    · intro p _ x
      show (modList (modify f p) done.length _).map _ = _
      rw [modList_mid]
      cases modify f p x <;> rfl
theorem fold_dict (isFile : Str → Bool) (f : Str → Option Str) (h0 g : Str → Str)
    (hf : ∀ s, names isFile s = true → f (h0 s) = some (g s)) : ∀ vs : List Val, GoodL vs → ∀ ks : List Key,
    ks.length = vs.length → (∀ k ∈ ks, ∃ s, k = .str s ∧ GoodKey s) → ∀ (kd : List Key) (vd : List Val),
    kd.length = vd.length → (kd ++ ks).Nodup →
    (pathsD isFile ks vs).foldlM (fun v p => modify f p v) (.dict (kd ++ ks) (vd ++ mapFilesL isFile h0 vs))
      = some (.dict (kd ++ ks) (vd ++ mapFilesL isFile g vs))
  | [], _, [], _, _, kd, vd, _, _ => by simp only [pathsD, mapFilesL]; rfl
  | [], _, _ :: _, hl, _, _, _, _, _ => by cases hl
  | _ :: _, _, [], hl, _, _, _, _, _ => by cases hl
  | v :: vs, hg, k :: ks, hl, hk, kd, vd, hd, hn => by
    simp only [GoodL] at hg
    simp only [pathsD, mapFilesL]
    obtain ⟨s, rfl, _⟩ := hk k (List.mem_cons_self ..)
    have hnot : Key.str s ∉ kd := fun h =>
      (List.nodup_append.1 hn).2.2 _ h _ (List.mem_cons_self ..) rfl
    rw [List.foldlM_append, List.foldlM_map]
    rw [fold_inside (fun v p => modify f (.key (Key.str s).format :: p) v) (fun v p => modify f p v)
      (fun y => .dict (kd ++ .str s :: ks) (vd ++ y :: mapFilesL isFile h0 vs))]
    · rw [fold_val isFile f h0 g hf v hg.1]
      have := fold_dict isFile f h0 g hf vs hg.2 ks (Nat.succ.inj hl)
        (fun k h => hk k (List.mem_cons_of_mem _ h)) (kd ++ [.str s]) (vd ++ [mapFiles isFile g v])
        (by simp [hd]) (by rw [List.append_assoc]; exact hn)
      rw [List.append_assoc, List.append_assoc, List.append_assoc] at this
      exact this
    · intro p _ x
      show (modDict (modify f p) (.str s) _ _).map _ = _
      rw [modDict_mid _ _ _ _ _ _ _ hd hnot]
      cases modify f p x <;> rfl
end

/-- All paths found among the arguments. -/
theorem fold_args (isFile : Str → Bool) (f : Str → Option Str) (h0 g : Str → Str)
    (hf : ∀ s, names isFile s = true → f (h0 s) = some (g s)) (args : List (Str × Val)) :
    ∀ done : List (Str × Val), ((done ++ args).map Prod.fst).Nodup → (∀ p ∈ args, ∀ c ∈ p.1, inKey c = true) →
      (∀ p ∈ args, Good p.2) →
      (guessArgs isFile args).foldlM (applyPath f) (done ++ mapArgs isFile h0 args)
        = some (done ++ mapArgs isFile g args) := by
  induction args with
  | nil => intro done _ _ _; rfl
  | cons d r ih =>
    obtain ⟨a, v⟩ := d
    intro done hn hk hg
    have hnot : a ∉ done.map Prod.fst := fun h => by
      rw [List.map_append] at hn
      exact (List.nodup_append.1 hn).2.2 _ h _ (List.mem_cons_self ..) rfl
    show (guess isFile ('$' :: '.' :: a) v ++ guessArgs isFile r).foldlM (applyPath f)
      (done ++ (a, mapFiles isFile h0 v) :: mapArgs isFile h0 r) = _
    rw [List.foldlM_append, guess_paths, List.foldlM_map]
    rw [fold_inside (fun x p => applyPath f x (('$' :: '.' :: a) ++ render p)) (fun v p => modify f p v)
      (fun y => done ++ (a, y) :: mapArgs isFile h0 r)]
    · rw [fold_val isFile f h0 g hf v (hg _ (List.mem_cons_self ..))]
      have := ih (done ++ [(a, mapFiles isFile g v)])
        (by
          have e : ((done ++ [(a, mapFiles isFile g v)]) ++ r).map Prod.fst = (done ++ (a, v) :: r).map Prod.fst := by
            simp
          rw [e]; exact hn)
        (fun p h => hk p (List.mem_cons_of_mem _ h)) (fun p h => hg p (List.mem_cons_of_mem _ h))
      rw [List.append_assoc, List.append_assoc] at this
      exact this
    · intro p hp x
      show applyPath f _ ('$' :: '.' :: (a ++ render p)) = _
      rw [applyPath_render f _ (hk _ (List.mem_cons_self ..))
        (paths_good isFile v (hg _ (List.mem_cons_self ..)) p hp), modArg_mid _ _ _ _ _ hnot]

mutual
theorem mapFiles_id (isFile : Str → Bool) : ∀ v, mapFiles isFile id v = v
  | .str s => by simp only [mapFiles, id]; split <;> rfl
  | .list xs => by simp only [mapFiles, mapFilesL_id isFile xs]
  | .dict ks vs => by simp only [mapFiles, mapFilesL_id isFile vs]
  | .other n => by simp only [mapFiles]
theorem mapFilesL_id (isFile : Str → Bool) : ∀ l, mapFilesL isFile id l = l
  | [] => by simp only [mapFilesL]
  | v :: r => by simp only [mapFilesL, mapFiles_id isFile v, mapFilesL_id isFile r]
end

theorem mapArgs_id (isFile : Str → Bool) (args : List (Str × Val)) : mapArgs isFile id args = args := by
  induction args with
  | nil => rfl
  | cons d r ih =>
    show (d.1, mapFiles isFile id d.2) :: mapArgs isFile id r = _
    rw [mapFiles_id, ih]

/-- **C132 (part).**  Saving replaces every name of a file among the arguments, in lists and dicts of any depth, by
the name of its copy, and nothing else. -/
theorem save_args_partial (isFile : Str → Bool) (bp : Str → Str → Option Str) (g : Str → Str)
    (args : List (Str × Val)) (h : GoodArgs args) (hb : ∀ s, names isFile s = true → bp [] s = some (g s)) :
    ∃ o, bundle bp (create isFile args) = some (mapArgs isFile g args, o) := by
  have := fold_args isFile (bp []) id g hb args [] h.1 h.2.1 h.2.2
  rw [mapArgs_id] at this
  have e : applyPaths (bp []) (guessArgs isFile args) args = some (mapArgs isFile g args) := this
  refine ⟨{ create isFile args with
    opt := shareArgs args (mapArgs isFile g args), live := shareArgs args (mapArgs isFile g args) }, ?_⟩
  show (applyPaths (bp []) (guessArgs isFile args) args).map _ = _
  rw [e]
  rfl

/-- **C132 (part).**  The constructor of the loaded object gets the arguments that it got first, with every name of a
file replaced by the name of its copy below the folder of the model. -/
theorem load_args_partial (isFile : Str → Bool) (bp : Str → Str → Option Str) (g : Str → Str)
    (args : List (Str × Val)) (pre : Str) (h : GoodArgs args)
    (hb : ∀ s, names isFile s = true → bp [] s = some (g s)) {cfg : List (Str × Val)} {o : Obj}
    (hs : bundle bp (create isFile args) = some (cfg, o)) :
    ∃ o', initLoaded o.paths cfg pre = some o' ∧ o'.live = mapArgs isFile (fun s => pre ++ g s) args := by
  obtain ⟨o1, h1⟩ := save_args_partial isFile bp g args h hb
  rw [hs] at h1
  have hc : cfg = mapArgs isFile g args := congrArg Prod.fst (Option.some.inj h1)
  have hp : o.paths = guessArgs isFile args := by
    unfold bundle at hs
    cases h2 : applyPaths (bp (create isFile args).pre) (create isFile args).paths (create isFile args).opt with
    | none => rw [h2] at hs; cases hs
    | some new => rw [h2] at hs; cases hs; rfl
  have := fold_args isFile (fun s => some (pre ++ s)) g (fun s => pre ++ g s) (fun _ _ => rfl) args [] h.1 h.2.1 h.2.2
  have e : applyPaths (fun s => some (pre ++ s)) (guessArgs isFile args) (mapArgs isFile g args) =
      some (mapArgs isFile (fun s => pre ++ g s) args) := this
  rw [hp, hc]
  unfold initLoaded
  rw [e]
  exact ⟨_, rfl, rfl⟩

end Verif.BundleArgs
