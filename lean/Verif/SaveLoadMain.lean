import Verif.SaveLoadProps
/-
A saved pipeline loaded again computes the same results, and when it does not.
-/

namespace Verif.SaveLoad

variable {δ γ κ α ε : Type} [DecidableEq κ]

theorem graph_ok {sem : Beh δ γ → List α → Except ε α} {H : Nat → Op δ} {fs0 : FS γ} {c : Cache δ γ} :
    ∀ {nodes : List (GNode κ)}, (∀ n ∈ nodes, c.find (key H n.op) = beh H fs0 n.op) →
    loadGraph sem c (nodes.map (toDict H)) = liveNodes sem H fs0 nodes
  | [], _ => rfl
  | n :: r, h => by
    have hn : c.find ((toDict H n).cls, (toDict H n).name) = beh H fs0 n.op := h n (by simp)
    rw [List.map_cons, loadGraph, liveNodes, hn, graph_ok fun m hm => h m (by simp [hm])]
    rfl

theorem live_some {sem : Beh δ γ → List α → Except ε α} {H : Nat → Op δ} {fs0 : FS γ} :
    ∀ {nodes : List (GNode κ)}, (∀ n ∈ nodes, ∃ b, beh H fs0 n.op = some b) →
    ∃ ns, liveNodes sem H fs0 nodes = some ns
  | [], _ => ⟨[], rfl⟩
  | n :: r, h => by
    obtain ⟨ns, hn⟩ := live_some (sem := sem) (nodes := r) fun m hm => h m (by simp [hm])
    obtain ⟨b, hb⟩ := h n (by simp)
    exact ⟨_, by rw [liveNodes, hb, hn]; rfl⟩

/-- What is assumed about a session that is saved and the process that loads it. -/
structure Fine (H : Nat → Op δ) (fs : FS γ) (folder : Str) (nodes : List (GNode κ)) (outs : List κ)
    (g0 : Scope δ γ) : Prop where
  /-- sub-operators are created first -/
  older : ∀ i, Reach H (nodes.map GNode.op) i → ∀ j ∈ (H i).subs, j < i
  /-- no two operators have the same class and name -/
  keys : ∀ i j, Reach H (nodes.map GNode.op) i → Reach H (nodes.map GNode.op) j → key H i = key H j → i = j
  /-- the resource files exist, and their copies do not collide -/
  files : Files H (Reach H (nodes.map GNode.op)) folder fs
  /-- the outputs of the session are exported entries -/
  exported : ∀ k ∈ outs, ∃ n ∈ nodes, (k, true) ∈ n.outputs
  some : outs ≠ []
  /-- no other shared operator with the name of one of the operators is alive in the loading process -/
  cache : ∀ i, Reach H (nodes.map GNode.op) i → g0 (key H i) = none ∨ g0 (key H i) = beh H fs i

/-- **Saving and loading.**  Saving succeeds, loading succeeds, and the loaded session has the nodes, the outputs
and the attributes of the saved one: every operator has its attributes, the content of its resource files and its
sub-operators. -/
theorem load_save_partial (share : Str → δ → Bool) (sem : Beh δ γ → List α → Except ε α) {H : Nat → Op δ} {fs : FS γ} {folder : Str}
    {nodes : List (GNode κ)} {outs : List κ} {g0 : Scope δ γ} (h : Fine H fs folder nodes outs g0) (now : Nat)
    {fuel : Nat} (hf : ∀ n ∈ nodes, n.op < fuel) (names : List String) :
    ∃ cfg fs' ns g, save H now folder fuel fs nodes outs names = some (cfg, fs') ∧
      load share sem fs' folder g0 cfg = some (ns, outs, names, g) ∧ liveNodes sem H fs nodes = some ns ∧
      (∀ i, Reach H (nodes.map GNode.op) i → g (key H i) = none ∨ g (key H i) = beh H fs i) ∧
      ∀ k, (∀ i, Reach H (nodes.map GNode.op) i → share (H i).cls (H i).data = true → k ≠ key H i) → g k = g0 k := by
  have hsub : ∀ i, Reach H (nodes.map GNode.op) i → ∀ j ∈ (H i).subs, Reach H (nodes.map GNode.op) j ∧ j < i :=
    fun i hi j hj => ⟨.sub hi hj, h.older i hi j hj⟩
  obtain ⟨s, h1, h2, h3⟩ := saveOps_ok (now := now) (fuel := fuel) (roots := nodes.map GNode.op) h.files hsub
    fun i hi => ⟨.root hi, by obtain ⟨n, hn, rfl⟩ := List.mem_map.1 hi; exact hf n hn⟩
  obtain ⟨c, k1, k2, -, k4, k5⟩ := loadOps_ok share h.files hsub h.keys h.cache s.visited h2.closed h2.reach h2.done
  have hall : ∀ i, Reach H (nodes.map GNode.op) i → i ∈ s.visited := by
    intro i hi
    induction hi with
    | root hr => exact h3 _ hr
    | sub _ hj ih => exact closed_mem h2.closed _ ih _ hj
  have hnode : ∀ n ∈ nodes, Reach H (nodes.map GNode.op) n.op := fun n hn => .root (List.mem_map.2 ⟨n, hn, rfl⟩)
  obtain ⟨ns, hns⟩ := live_some (sem := sem) (H := H) (fs0 := fs) (nodes := nodes) fun n hn =>
    beh_some h.files hsub n.op (hnode n hn)
  refine ⟨⟨s.recs, nodes.map (toDict H), outs, names⟩, s.fs, ns, c.glob, ?_, ?_, hns, k4,
    fun k hk => k5 k fun i hi => hk i (h2.reach i hi)⟩
  · rw [save, h1]
  · rw [load]
    dsimp only
    rw [h2.recs, k1]
    dsimp only
    rw [graph_ok (fs0 := fs) fun n hn => k2 n.op (hall n.op (hnode n hn)), hns]
    dsimp only
    have hex : ∀ k ∈ outs, k ∈ (nodes.map (toDict H)).flatMap fun g => g.exported.filter fun k => decide (k ∈ g.outputs) := by
      intro k hk
      obtain ⟨n, hn, ho⟩ := h.exported k hk
      refine List.mem_flatMap.2 ⟨toDict H n, List.mem_map.2 ⟨n, hn, rfl⟩, ?_⟩
      rw [List.mem_filter]
      constructor
      · exact List.mem_map.2 ⟨(k, true), List.mem_filter.2 ⟨ho, rfl⟩, rfl⟩
      · exact decide_eq_true (List.mem_map.2 ⟨(k, true), ho, rfl⟩)
    rw [if_neg, if_pos hex]
    intro he
    obtain ⟨k, hk⟩ := List.exists_mem_of_ne_nil _ h.some
    have := hex k hk
    rw [he] at this
    simp at this

/-- **Results.**  Whatever is fed, the loaded session returns what the saved one returns, including the exception
it throws. -/
theorem run_load_partial (share : Str → δ → Bool) (sem : Beh δ γ → List α → Except ε α) {H : Nat → Op δ} {fs : FS γ}
    {folder : Str} {nodes : List (GNode κ)} {outs : List κ} {g0 : Scope δ γ} (h : Fine H fs folder nodes outs g0)
    (now : Nat) {fuel : Nat} (hf : ∀ n ∈ nodes, n.op < fuel) (names : List String) {live : List (Session.Node κ α ε)}
    (hl : liveNodes sem H fs nodes = some live) {cfg : Config κ δ} {fs' : FS γ}
    (hs : save H now folder fuel fs nodes outs names = some (cfg, fs')) :
    ∃ ns g, load share sem fs' folder g0 cfg = some (ns, outs, names, g) ∧
      ∀ asTuple feed, Session.runSerial ns asTuple names outs feed = Session.runSerial live asTuple names outs feed := by
  obtain ⟨cfg', fs2, ns, g, h1, h2, h3, -⟩ := load_save_partial share sem h now hf names
  rw [h1] at hs
  obtain ⟨rfl, rfl⟩ := Prod.mk.inj (Option.some.inj hs)
  rw [h3] at hl
  exact ⟨ns, g, h2, fun _ _ => by rw [Option.some.inj hl]⟩

/-- **Loading twice.**  Loading a folder again, while the first session is alive, gives the same nodes. -/
theorem load_twice_partial (share : Str → δ → Bool) (sem : Beh δ γ → List α → Except ε α) {H : Nat → Op δ} {fs : FS γ} {folder : Str}
    {nodes : List (GNode κ)} {outs : List κ} {g0 : Scope δ γ} (h : Fine H fs folder nodes outs g0) (now : Nat)
    {fuel : Nat} (hf : ∀ n ∈ nodes, n.op < fuel) (names : List String) :
    ∃ cfg fs' ns g g', save H now folder fuel fs nodes outs names = some (cfg, fs') ∧
      load share sem fs' folder g0 cfg = some (ns, outs, names, g) ∧
      load share sem fs' folder g cfg = some (ns, outs, names, g') := by
  obtain ⟨cfg, fs', ns, g, h1, h2, h3, h4, -⟩ := load_save_partial share sem h now hf names
  have h' : Fine H fs folder nodes outs g := ⟨h.older, h.keys, h.files, h.exported, h.some, h4⟩
  obtain ⟨cfg2, fs2, ns2, g2, k1, k2, k3, -⟩ := load_save_partial share sem h' now hf names
  rw [h1] at k1
  obtain ⟨rfl, rfl⟩ := Prod.mk.inj (Option.some.inj k1)
  rw [h3] at k3
  obtain rfl := Option.some.inj k3
  exact ⟨cfg, fs', ns, g, g2, h1, h2, k2⟩

/-- **Isolation.**  Loading a session without shared operators leaves the shared scope as it is: it cannot
change what is loaded later. -/
theorem load_isolated_partial (share : Str → δ → Bool) (sem : Beh δ γ → List α → Except ε α) {H : Nat → Op δ}
    {fs : FS γ} {folder : Str} {nodes : List (GNode κ)} {outs : List κ} {g0 : Scope δ γ}
    (h : Fine H fs folder nodes outs g0) (now : Nat) {fuel : Nat} (hf : ∀ n ∈ nodes, n.op < fuel)
    (names : List String)
    (hs : ∀ i, Reach H (nodes.map GNode.op) i → share (H i).cls (H i).data = false) :
    ∃ cfg fs' ns, save H now folder fuel fs nodes outs names = some (cfg, fs') ∧
      load share sem fs' folder g0 cfg = some (ns, outs, names, g0) ∧ liveNodes sem H fs nodes = some ns := by
  obtain ⟨cfg, fs', ns, g, h1, h2, h3, -, h5⟩ := load_save_partial share sem h now hf names
  obtain rfl : g = g0 := funext fun k => h5 k fun i hi ht => by rw [hs i hi] at ht; exact absurd ht (by decide)
  exact ⟨cfg, fs', ns, h1, h2, h3⟩

/-! ### What goes wrong -/

/-- **Finding.**  If a shared operator with the class and the name of the saved one is alive in the process, the
loaded session uses that operator, whatever it does: its attributes and files are not those that were saved. -/
theorem shadowed_refuted (share : Str → δ → Bool) (sem : Beh δ γ → List α → Except ε α) (o : Op δ) (hs : o.subs = [])
    (ho : o.files = []) (fs : FS γ) (folder : Str) (now : Nat) (k : κ) (ins : List κ) (names : List String)
    (b : Beh δ γ) (g0 : Scope δ γ) (hc : g0 (o.cls, o.name) = some b) :
    ∃ cfg fs', save (fun _ => o) now folder 1 fs [⟨0, ins, [(k, true)]⟩] [k] names = some (cfg, fs') ∧
      load share sem fs' folder g0 cfg = some ([mkNode sem o.cls ins [k] b], [k], names, g0) := by
  refine ⟨⟨[⟨o.cls, o.name, o.data, [], []⟩], [⟨o.cls, o.name, ins, [k], [k]⟩], [k], names⟩, fs, ?_, ?_⟩
  · simp [save, saveOps, dfs, hs, ho, bundle, toDict]
  · simp [load, loadOps, createOp, loadGraph, Cache.find, hc]

/-- **Finding.**  Two models with a shared operator of the same class and name, saved to different folders by
different processes and loaded one after the other: the second one computes with the operator of the first one. -/
theorem second_model_refuted (share : Str → δ → Bool) (sem : Beh δ γ → List α → Except ε α) (o p : Op δ)
    (hs : o.subs = [] ∧ p.subs = []) (ho : o.files = [] ∧ p.files = []) (hk : p.cls = o.cls ∧ p.name = o.name)
    (hsh : share o.cls o.data = true) (fs : FS γ) (folder folder' : Str) (now : Nat) (k : κ) (ins : List κ)
    (names : List String) :
    ∃ cfg cfg' g, save (fun _ => o) now folder 1 fs [⟨0, ins, [(k, true)]⟩] [k] names = some (cfg, fs) ∧
      save (fun _ => p) now folder' 1 fs [⟨0, ins, [(k, true)]⟩] [k] names = some (cfg', fs) ∧
      load share sem fs folder (fun _ => none) cfg = some ([mkNode sem o.cls ins [k] (.node o.cls o.data [] [])], [k], names, g) ∧
      load share sem fs folder' g cfg' = some ([mkNode sem o.cls ins [k] (.node o.cls o.data [] [])], [k], names, g) := by
  refine ⟨⟨[⟨o.cls, o.name, o.data, [], []⟩], [⟨o.cls, o.name, ins, [k], [k]⟩], [k], names⟩,
    ⟨[⟨p.cls, p.name, p.data, [], []⟩], [⟨p.cls, p.name, ins, [k], [k]⟩], [k], names⟩,
    fun x => if x = (o.cls, o.name) then some (.node o.cls o.data [] []) else none, ?_, ?_, ?_, ?_⟩
  · simp [save, saveOps, dfs, hs, ho, bundle, toDict]
  · simp [save, saveOps, dfs, hs, ho, bundle, toDict]
  · simp [load, loadOps, createOp, loadGraph, Cache.find, findAll, readFiles, hsh, Scope.set]
    rfl
  · simp [load, loadOps, createOp, loadGraph, Cache.find, hk]

/-- **Finding.**  Two resource files of an operator with the same base name: the second one is not saved, and the
loaded operator reads the first one in its place. -/
theorem basename_refuted (share : Str → δ → Bool) (o : Op δ) {f g : Str} (ho : o.files = [f, g]) (hs : o.subs = []) (hf : f ≠ [])
    (hg : g ≠ []) (hb : baseName f = baseName g) (fs : FS γ) (folder : Str) {now tf tg : Nat} {cf cg : γ}
    (h1 : fs (o.pre ++ f) = some (cf, tf)) (h2 : fs (o.pre ++ g) = some (cg, tg)) (hnow : tg ≤ now)
    (hnew : fs (dst folder o f) = none) :
    ∃ s c, saveOps (fun _ => o) now folder 1 fs [0] = some s ∧ loadOps share s.fs folder ⟨fun _ => none, fun _ => none⟩ s.recs = some c ∧
      c.find (o.cls, o.name) = some (.node o.cls o.data [some cf, some cf] []) := by
  have hd : dst folder o g = dst folder o f := by rw [dst, dst, hb]
  have hne : o.pre ++ g ≠ dst folder o f := by
    intro he
    rw [he, hnew] at h2
    simp at h2
  refine ⟨⟨[0], [⟨o.cls, o.name, o.data, [relFile o f, relFile o g], []⟩],
    fun p => if p = dst folder o f then some (cf, now) else fs p⟩,
    if share o.cls o.data then ⟨fun _ => none, fun k => if k = (o.cls, o.name) then some (.node o.cls o.data [some cf, some cf] []) else none⟩
    else ⟨fun k => if k = (o.cls, o.name) then some (.node o.cls o.data [some cf, some cf] []) else none, fun _ => none⟩, ?_, ?_, ?_⟩
  · have : ¬ now < tg := by omega
    simp [saveOps, dfs, hs, ho, bundle, bundlePath, hf, hg, copy, h1, h2, hnew, hd, hne, this, relFile]
  · have e1 : ∀ x, x ≠ [] → folder ++ '/' :: relFile o x = dst folder o x := by
      intro x hx; rw [rel_ne o hx, dst]
    have n1 : ∀ x, x ≠ [] → relFile o x ≠ [] := by
      intro x hx; rw [rel_ne o hx]; simp
    cases hsh : share o.cls o.data <;>
      simp [loadOps, createOp, findAll, readFiles, n1 f hf, n1 g hg, e1 f hf, e1 g hg, hd, Cache.find, hsh, Scope.set] <;> rfl
  · cases hsh : share o.cls o.data <;> simp [Cache.find]

/-- **Finding.**  Saving into a folder that holds a file of the same name with a later date keeps that file: the
loaded operator reads the old content. -/
theorem resave_refuted (share : Str → δ → Bool) (o : Op δ) {f : Str} (ho : o.files = [f]) (hs : o.subs = []) (hf : f ≠ []) (fs : FS γ)
    (folder : Str) {now t t' : Nat} {c c' : γ} (h1 : fs (o.pre ++ f) = some (c, t))
    (h2 : fs (dst folder o f) = some (c', t')) (ht : t ≤ t') :
    ∃ s l, saveOps (fun _ => o) now folder 1 fs [0] = some s ∧ loadOps share s.fs folder ⟨fun _ => none, fun _ => none⟩ s.recs = some l ∧
      l.find (o.cls, o.name) = some (.node o.cls o.data [some c'] []) := by
  refine ⟨⟨[0], [⟨o.cls, o.name, o.data, [relFile o f], []⟩], fs⟩,
    if share o.cls o.data then ⟨fun _ => none, fun k => if k = (o.cls, o.name) then some (.node o.cls o.data [some c'] []) else none⟩
    else ⟨fun k => if k = (o.cls, o.name) then some (.node o.cls o.data [some c'] []) else none, fun _ => none⟩, ?_, ?_, ?_⟩
  · have : ¬ t' < t := by omega
    simp [saveOps, dfs, hs, ho, bundle, bundlePath, hf, copy, h1, h2, this, relFile]
  · have e1 : folder ++ '/' :: relFile o f = dst folder o f := by rw [rel_ne o hf, dst]
    have n1 : relFile o f ≠ [] := by rw [rel_ne o hf]; simp
    cases hsh : share o.cls o.data <;>
      simp [loadOps, createOp, findAll, readFiles, n1, e1, h2, Cache.find, hsh, Scope.set] <;> rfl
  · cases hsh : share o.cls o.data <;> simp [Cache.find]

/-- **Finding.**  Operators of class `A` named `x` and `A_x` share a directory, for every class and every name that
does not begin with the class. -/
theorem dir_refuted (o p : Op δ) (hc : o.cls = p.cls) (hn : o.cls.isPrefixOf o.name = false)
    (hp : p.name = o.cls ++ '_' :: o.name) (folder f : Str) :
    (o.cls, o.name) ≠ (p.cls, p.name) ∧ dst folder o f = dst folder p f := by
  have h1 : relDir p = o.cls ++ '_' :: o.name := by
    rw [relDir, hp, ← hc, if_pos (List.isPrefixOf_iff_prefix.2 ⟨_, rfl⟩)]
  have h2 : relDir o = o.cls ++ '_' :: o.name := by
    rw [relDir, hn]; rfl
  refine ⟨fun h => ?_, by rw [dst, dst, h1, h2]⟩
  have := congrArg (List.length ∘ Prod.snd) h
  simp [hp] at this
  omega

end Verif.SaveLoad
