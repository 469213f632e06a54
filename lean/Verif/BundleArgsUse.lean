import Verif.BundleArgsMain
/-
What saving does to the object that is saved, and arguments whose files are not found again.
-/

namespace Verif.BundleArgs

mutual
/-- No string names a file. -/
def NoFiles (isFile : Str → Bool) : Val → Prop
  | .str s => names isFile s = false
  | .list xs => NoFilesL isFile xs
  | .dict _ vs => NoFilesL isFile vs
  | .other _ => True
def NoFilesL (isFile : Str → Bool) : List Val → Prop
  | [] => True
  | v :: r => NoFiles isFile v ∧ NoFilesL isFile r
end

mutual
theorem mapFiles_none (isFile : Str → Bool) (g : Str → Str) : ∀ v, NoFiles isFile v → mapFiles isFile g v = v
  | .str s, h => by
    simp only [NoFiles] at h
    simp only [mapFiles]
    rw [if_neg (by rw [h]; exact Bool.false_ne_true)]
  | .list xs, h => by
    simp only [NoFiles] at h
    simp only [mapFiles, mapFilesL_none isFile g xs h]
  | .dict ks vs, h => by
    simp only [NoFiles] at h
    simp only [mapFiles, mapFilesL_none isFile g vs h]
  | .other n, _ => by simp only [mapFiles]
theorem mapFilesL_none (isFile : Str → Bool) (g : Str → Str) : ∀ l, NoFilesL isFile l → mapFilesL isFile g l = l
  | [], _ => by simp only [mapFilesL]
  | v :: r, h => by
    simp only [NoFilesL] at h
    simp only [mapFilesL, mapFiles_none isFile g v h.1, mapFilesL_none isFile g r h.2]
end

/-- Names of files are arguments themselves: none is in a list or a dict. -/
def Flat (isFile : Str → Bool) (args : List (Str × Val)) : Prop :=
  ∀ p ∈ args, (∃ s, p.2 = .str s) ∨ NoFiles isFile p.2

theorem share_flat (isFile : Str → Bool) (h0 g : Str → Str) (args : List (Str × Val)) (h : Flat isFile args) :
    shareArgs (mapArgs isFile h0 args) (mapArgs isFile g args) = mapArgs isFile h0 args := by
  induction args with
  | nil => rfl
  | cons d r ih =>
    obtain ⟨a, v⟩ := d
    show (a, share (mapFiles isFile h0 v) (mapFiles isFile g v)) ::
      shareArgs (mapArgs isFile h0 r) (mapArgs isFile g r) = (a, mapFiles isFile h0 v) :: mapArgs isFile h0 r
    rw [ih (fun p hp => h p (List.mem_cons_of_mem _ hp))]
    congr 2
    rcases h _ (List.mem_cons_self ..) with ⟨s, hs⟩ | hn
    · have hs : v = .str s := hs
      subst hs
      simp only [mapFiles, share]
    · have hn : NoFiles isFile v := hn
      rw [mapFiles_none isFile h0 v hn, mapFiles_none isFile g v hn]
      cases v <;> rfl

/-- **C132 (part).**  If no list or dict holds names of files, saving does not change the object, so it can be saved
any number of times. -/
theorem save_unchanged_partial (isFile : Str → Bool) (bp : Str → Str → Option Str) (g : Str → Str)
    (args : List (Str × Val)) (h : GoodArgs args) (hf : Flat isFile args)
    (hb : ∀ s, names isFile s = true → bp [] s = some (g s)) :
    bundle bp (create isFile args) = some (mapArgs isFile g args, create isFile args) := by
  have := fold_args isFile (bp []) id g hb args [] h.1 h.2.1 h.2.2
  rw [mapArgs_id] at this
  have e : applyPaths (bp []) (guessArgs isFile args) args = some (mapArgs isFile g args) := this
  have hs := share_flat isFile id g args hf
  rw [mapArgs_id] at hs
  show (applyPaths (bp []) (guessArgs isFile args) args).map _ = _
  rw [e]
  show some (_, Obj.mk _ (shareArgs args _) (shareArgs args _) _) = _
  rw [hs]
  rfl

/-- **C132 (part).**  If no list or dict holds names of files, a loaded object can be saved again, from the files of
the model that it was loaded from. -/
theorem save_loaded_partial (isFile : Str → Bool) (bp : Str → Str → Option Str) (g g' : Str → Str)
    (args : List (Str × Val)) (pre : Str) (h : GoodArgs args) (hf : Flat isFile args)
    (hb : ∀ s, names isFile s = true → bp [] s = some (g s))
    (hb' : ∀ s, names isFile s = true → bp pre (g s) = some (g' s)) :
    ∃ cfg o o', bundle bp (create isFile args) = some (cfg, o) ∧ initLoaded o.paths cfg pre = some o' ∧
      bundle bp o' = some (mapArgs isFile g' args, o') := by
  have e : applyPaths (fun s => some (pre ++ s)) (guessArgs isFile args) (mapArgs isFile g args) =
      some (mapArgs isFile (fun s => pre ++ g s) args) :=
    fold_args isFile (fun s => some (pre ++ s)) g (fun s => pre ++ g s) (fun _ _ => rfl) args [] h.1 h.2.1 h.2.2
  have e' : applyPaths (bp pre) (guessArgs isFile args) (mapArgs isFile g args) = some (mapArgs isFile g' args) :=
    fold_args isFile (bp pre) g g' hb' args [] h.1 h.2.1 h.2.2
  refine ⟨_, _, ⟨guessArgs isFile args, mapArgs isFile g args, mapArgs isFile (fun s => pre ++ g s) args, pre⟩,
    save_unchanged_partial isFile bp g args h hf hb, ?_, ?_⟩
  · show (applyPaths (fun s => some (pre ++ s)) (guessArgs isFile args) (mapArgs isFile g args)).map _ = _
    rw [e]
    show some (Obj.mk _ (shareArgs _ _) _ _) = _
    rw [share_flat isFile g _ args hf]
    rfl
  · show (applyPaths (bp pre) (guessArgs isFile args) (mapArgs isFile g args)).map _ = _
    rw [e']
    show some (_, Obj.mk _ (shareArgs _ _) (shareArgs _ _) _) = _
    rw [share_flat isFile g g' args hf, share_flat isFile _ g' args hf]

/-! ### Names in lists -/

theorem path_one : '$' :: '.' :: (['a'] ++ render [.idx 0]) = "$.a[0]".toList := by
  simp [render, Tok.text, digits]

theorem guess_one (isFile : Str → Bool) (s : Str) (h : names isFile s = true) :
    guessArgs isFile [(['a'], .list [.str s])] = ["$.a[0]".toList] := by
  show guess isFile ('$' :: '.' :: ['a']) _ ++ [] = _
  rw [guess_paths]
  simp only [paths, pathsL, if_pos h]
  rw [← path_one]
  rfl

theorem apply_one (f : Str → Option Str) (s : Str) :
    applyPaths f ["$.a[0]".toList] [(['a'], .list [.str s])] = (f s).map fun t => [(['a'], .list [.str t])] := by
  have e := applyPath_render f [(['a'], .list [.str s])] (a := ['a']) (by decide) (ts := [.idx 0])
    (fun k hk => by rw [List.mem_singleton] at hk; cases hk)
  show (applyPath f [(['a'], .list [.str s])] "$.a[0]".toList).bind some = _
  rw [← path_one, e]
  show ((((((f s).map Val.str).map (· :: [])).map Val.list)).map fun w => [(['a'], w)]).bind some = _
  cases f s <;> rfl

/-- **C132 (refuted).**  A list with the name of a file: saving changes the list that the living object was given,
to the name that the copy has inside the model; if there is no such file beside the running program, the object
cannot be saved a second time. -/
theorem saved_twice_refuted (isFile : Str → Bool) (bp : Str → Str → Option Str) (s t : Str)
    (h : names isFile s = true) (h1 : bp [] s = some t) (h2 : bp [] t = none) :
    ∃ o, bundle bp (create isFile [(['a'], .list [.str s])]) = some ([(['a'], .list [.str t])], o) ∧
      o.live = [(['a'], .list [.str t])] ∧ bundle bp o = none := by
  refine ⟨⟨["$.a[0]".toList], [(['a'], .list [.str t])], [(['a'], .list [.str t])], []⟩, ?_, rfl, ?_⟩
  · show (applyPaths (bp []) (guessArgs isFile _) [(['a'], .list [.str s])]).map _ = _
    rw [guess_one isFile s h, apply_one, h1]
    show some (_, Obj.mk (guessArgs isFile _) _ _ _) = _
    rw [guess_one isFile s h]
    rfl
  · show (applyPaths (bp []) ["$.a[0]".toList] _).map _ = _
    rw [apply_one, h2]
    rfl

/-- **C132 (refuted).**  A loaded object with such a list cannot be saved, unless its folder has a copy of itself
inside. -/
theorem save_loaded_refuted (bp : Str → Str → Option Str) (pre s : Str) (h : bp pre (pre ++ s) = none) :
    ∃ o, initLoaded ["$.a[0]".toList] [(['a'], .list [.str s])] pre = some o ∧
      o.live = [(['a'], .list [.str (pre ++ s)])] ∧ bundle bp o = none := by
  refine ⟨⟨["$.a[0]".toList], [(['a'], .list [.str (pre ++ s)])], [(['a'], .list [.str (pre ++ s)])], pre⟩, ?_, rfl,
    ?_⟩
  · show (applyPaths _ ["$.a[0]".toList] _).map _ = _
    rw [apply_one]
    rfl
  · show (applyPaths (bp pre) ["$.a[0]".toList] _).map _ = _
    rw [apply_one, h]
    rfl

/-! ### Keys that cannot be written in a path -/

theorem guess_key (isFile : Str → Bool) (k : Key) (s : Str) (h : names isFile s = true) :
    guessArgs isFile [(['a'], .dict [k] [.str s])] = ['$' :: '.' :: 'a' :: '.' :: k.format] := by
  show guess isFile ('$' :: '.' :: ['a']) _ ++ [] = _
  rw [guess_paths]
  simp only [paths, pathsD, if_pos h]
  simp [render, Tok.text]

/-- A path with tokens that are not those of the key. -/
theorem bundle_key (isFile : Str → Bool) (bp : Str → Str → Option Str) (k : Key) (s : Str)
    (h : names isFile s = true) {ts : List Tok} (hr : '.' :: k.format = render ts) (hg : GoodToks ts)
    (hm : modify (bp []) ts (.dict [k] [.str s]) = none) :
    bundle bp (create isFile [(['a'], .dict [k] [.str s])]) = none := by
  show (applyPaths (bp []) (guessArgs isFile _) [(['a'], .dict [k] [.str s])]).map _ = _
  rw [guess_key isFile k s h]
  show ((applyPath (bp []) [(['a'], .dict [k] [.str s])] ('$' :: '.' :: 'a' :: '.' :: k.format)).bind some).map _ = _
  have e := applyPath_render (bp []) [(['a'], .dict [k] [.str s])] (a := ['a']) (by decide) hg
  rw [← hr] at e
  rw [show ('$' :: '.' :: 'a' :: '.' :: k.format) = '$' :: '.' :: (['a'] ++ '.' :: k.format) from rfl, e]
  show (((if ['a'] = ['a'] then _ else _ : Option (List (Str × Val)))).bind some).map _ = _
  rw [if_pos rfl, hm]
  rfl

/-- **C132 (refuted).**  An object whose argument is a dict with a dot in a key, the value being the name of a file,
cannot be saved. -/
theorem dotted_key_refuted (isFile : Str → Bool) (bp : Str → Str → Option Str) (k1 k2 s : Str)
    (h1 : GoodKey k1) (h2 : GoodKey k2) (h : names isFile s = true) :
    bundle bp (create isFile [(['a'], .dict [.str (k1 ++ '.' :: k2)] [.str s])]) = none := by
  refine bundle_key isFile bp _ s h (ts := [.key k1, .key k2]) (by simp [render, Tok.text, Key.format]) ?_ ?_
  · intro k hk
    rcases List.mem_cons.1 hk with e | hk
    · cases e; exact h1
    · rw [List.mem_singleton] at hk; cases hk; exact h2
  · show (((if Key.str (k1 ++ '.' :: k2) = .str k1 then _ else _ : Option (List Val)))).map _ = _
    rw [if_neg (fun e => by
      have := congrArg List.length (Key.str.inj e)
      simp at this)]
    rfl

theorem digit_inKey : ∀ d : Nat, d < 10 → inKey (Char.ofNat (48 + d)) = true := by decide

theorem digits_good (n : Nat) : GoodKey (digits n) := by
  induction n using Nat.strongRecOn with
  | _ n ih =>
    rw [digits]
    split
    · rename_i h
      refine ⟨by simp, fun c hc => ?_⟩
      rw [List.mem_singleton] at hc
      subst hc
      exact digit_inKey n h
    · refine ⟨by simp, fun c hc => ?_⟩
      rcases List.mem_append.1 hc with h | h
      · exact (ih _ (by omega)).2 c h
      · rw [List.mem_singleton] at h
        subst h
        exact digit_inKey _ (Nat.mod_lt _ (by omega))

/-- **C132 (refuted).**  The same for a number as key. -/
theorem number_key_refuted (isFile : Str → Bool) (bp : Str → Str → Option Str) (n : Nat) (s : Str) (h : names isFile s = true) :
    bundle bp (create isFile [(['a'], .dict [.int n] [.str s])]) = none := by
  refine bundle_key isFile bp _ s h (ts := [.key (digits n)]) (by simp [render, Tok.text, Key.format]) ?_ ?_
  · intro k hk
    rw [List.mem_singleton] at hk; cases hk; exact digits_good n
  · show (((if Key.int n = .str (digits n) then _ else _ : Option (List Val)))).map _ = _
    rw [if_neg (fun e => by cases e)]
    rfl

/-! ### Examples -/

def ex : List (Str × Val) :=
  [("w".toList, .str "v/w.txt".toList),
   ("m".toList, .dict [.str "x".toList, .str "y".toList]
      [.list [.str "v/a".toList, .other 3, .str "none".toList], .str "..".toList])]

def exFile (s : Str) : Bool := s == "v/w.txt".toList || s == "v/a".toList || s == "..".toList

/-- `BundlePath` into the folder `J`. -/
def exBp (pre s : Str) : Option Str := if exFile (pre ++ s) then some ("J/".toList ++ s.drop 2) else none

example : guessArgs exFile ex = ["$.w".toList, "$.m.x[0]".toList] := by
  simp [guessArgs, ex, guess, guessDict, guessList, exFile, Key.format, digits]

example : GoodArgs ex := by
  refine ⟨by decide, by decide, ?_⟩
  intro p hp
  simp only [ex, List.mem_cons, List.mem_nil_iff, or_false] at hp
  rcases hp with rfl | rfl
  · simp [Good]
  · refine ⟨rfl, by decide, ?_, ?_⟩
    · intro k hk
      simp only [List.mem_cons, List.mem_nil_iff, or_false] at hk
      rcases hk with rfl | rfl
      · exact ⟨_, rfl, by decide, by decide⟩
      · exact ⟨_, rfl, by decide, by decide⟩
    · simp [GoodL, Good]

example : mapArgs exFile (fun s => "m/J/".toList ++ s.drop 2) ex =
    [("w".toList, .str "m/J/w.txt".toList),
     ("m".toList, .dict [.str "x".toList, .str "y".toList]
        [.list [.str "m/J/a".toList, .other 3, .str "none".toList], .str "..".toList])] := by
  simp [mapArgs, ex, mapFiles, mapFilesL, names, exFile]

example : (parse 20 "x[12].k".toList) = some [.key "x".toList, .idx 12, .key "k".toList] := by decide

example : digits 120 = "120".toList := by simp [digits]

example : exBp [] "v/a".toList = some "J/a".toList ∧ exBp [] "J/a".toList = none := by decide

end Verif.BundleArgs
