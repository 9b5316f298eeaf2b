import Verif.Props.Seeds

/-!
# Property C146: which random numbers a call draws

C126 says that a seed makes a call reproducible.  Here: a call without a seed draws numbers that no call before it has drawn, and the
numbers of one call come from one generator, one after the other.
-/

namespace CZ
namespace Seeds

noncomputable section
open Classical

/-! ## Specification -/

/-- One request to a `np.random.Generator`. -/
inductive Req
  | uniform (n : ℕ)
  | normal (n : ℕ)
  | probs (n : ℕ)
  | raw

/-- One request to the global generator. -/
inductive GReq
  | randint
  | rand (n : ℕ)

variable (np : Np)

/-- The generator after a request. -/
def Np.skip (g : np.G) : Req → np.G
  | .uniform n => (np.uniform g n).2
  | .normal n => (np.normal g n).2
  | .probs n => (np.probs g n).2
  | .raw => (np.raw g).2

/-- The generator after a list of requests. -/
def Np.after (g : np.G) (l : List Req) : np.G := l.foldl np.skip g

/-- The global generator after a request. -/
def Np.gskip (m : np.M) : GReq → np.M
  | .randint => (np.randint m).2
  | .rand n => (np.rand m n).2

/-- The global generator after a list of requests. -/
def Np.gafter (m : np.M) (l : List GReq) : np.M := l.foldl np.gskip m

/-- How many generators a call has the operating system make. -/
def made : Call → ℕ
  | .splits n m l none _ => if n = 0 ∨ l - 2 * m < (n - 1) * m then 0 else 1
  | .substrate _ _ _ none _ => 1
  | .batched _ _ _ _ _ none _ => 1
  | .normal _ _ _ _ none _ _ => 1
  | .substitute _ _ _ _ none => 1
  | _ => 0

/-- What a call asks the global generator for: a seed if none is given, and two arrays for the alpha shape without sampling. -/
def asked : Call → List GReq
  | .alpha pts _ => [.rand pts.length, .rand pts.length]
  | .alphaSampled _ _ _ _ none => [.randint]
  | .adsorb a sampling seed _ =>
    (if seed = none then [.randint] else []) ++ if sampling then [] else [.rand a.vol.atoms.length, .rand a.vol.atoms.length]
  | _ => []

/-- The state before the next call, when `P` was run in the state `st`. -/
def stateAfter (st : St np) : List Call → St np
  | [] => st
  | c :: P => stateAfter ⟨match c with | .setSeed s => np.mseed s | c => np.gafter st.glob (asked c), fun k => st.os (k + made c)⟩ P

variable (del : List (V3 ℝ) → List Surf.Tet)

/-! ## Between calls -/

/-- **C146 (state).** A call uses up exactly what it asks for: generators made by the operating system and numbers of the global generator
are not used again by later calls, and none is skipped. -/
theorem C146_state (c : Call) (st : St np) :
    (exec np del c st).2.os = (fun k => st.os (k + made c)) ∧
    ((∀ s, c ≠ .setSeed s) → (exec np del c st).2.glob = np.gafter st.glob (asked c)) ∧
    ∀ s, c = .setSeed s → (exec np del c st).2.glob = np.mseed s := by
  cases c with
  | setSeed s => simp [exec, made]
  | splits n m l seed fuel => cases seed <;> simp only [exec, made, asked] <;> split_ifs <;> simp [Np.defaultRng, Np.gafter]
  | substrate dims m d seed fuel => cases seed <;> simp [exec, made, asked, Np.defaultRng, Np.gafter]
  | batched dims m d sc sz seed fuel => cases seed <;> simp [exec, made, asked, Np.defaultRng, Np.gafter]
  | normal pts decay tol margin seed ms fuel => cases seed <;> simp [exec, made, asked, Np.defaultRng, Np.gafter]
  | alpha pts r => simp [exec, made, asked, globalNoise, Np.gafter, Np.gskip]
  | alphaSampled pts r n std seed => cases seed <;> simp [exec, made, asked, pickSeed, Np.gafter, Np.gskip]
  | adsorb a sampling seed fuel => cases seed <;> cases sampling <;> simp [exec, made, asked, pickSeed, globalNoise, Np.gafter, Np.gskip]
  | substitute target subs frac species seed => cases seed <;> simp [exec, made, asked, Np.defaultRng, Np.gafter]

/-- The state after one call, in the words of the specification. -/
theorem exec_state (c : Call) (st : St np) : (exec np del c st).2 = stateAfter np st [c] := by
  obtain ⟨h1, h2, h3⟩ := C146_state np del c st
  have : (exec np del c st).2 = ⟨(exec np del c st).2.glob, (exec np del c st).2.os⟩ := rfl
  rw [this, h1]
  cases c with
  | setSeed s => rw [h3 s rfl]; rfl
  | _ => rw [h2 (by intro s h; cases h)]; rfl

theorem stateAfter_cons (c : Call) (P : List Call) (st : St np) : stateAfter np st (c :: P) = stateAfter np (stateAfter np st [c]) P := rfl

theorem run_state (P : List Call) (st : St np) : (run np del P st).2 = stateAfter np st P := by
  induction P generalizing st with
  | nil => rfl
  | cons c P ih =>
    rw [stateAfter_cons, ← exec_state np del c st, ← ih]
    rfl

/-- **C146 (programs).** In a program every call returns what it returns in the state in which exactly the numbers asked for by the calls
before it are used up. -/
theorem C146_programs (P Q : List Call) (c : Call) (st : St np) :
    (run np del (P ++ c :: Q) st).1[P.length]? = some (exec np del c (stateAfter np st P)).1 := by
  have hl : ∀ (P : List Call) (st : St np), (run np del P st).1.length = P.length := by
    intro P
    induction P with
    | nil => intro st; rfl
    | cons c P ih => intro st; simp [run, ih]
  rw [run_append]
  simp only [run]
  rw [List.getElem?_append_right (by rw [hl]), hl, Nat.sub_self, run_state]
  rfl

/-- **C146 (entropy).** The k-th of calls that all leave the generator to the operating system, here of `gen_p_substrate`, uses the k-th
generator that the operating system makes, whatever is done with the global generator in between. -/
theorem C146_entropy (P Q : List Call) (dims : V3 ℝ) (m d : ℝ) (fuel : ℕ) (st : St np) :
    (run np del (P ++ .substrate dims m d none fuel :: Q) st).1[P.length]? =
      some (.points (Amo.genPSubstrate dims m d (np.pointAt (st.os (P.map made).sum)) fuel)) := by
  rw [C146_programs]
  have h : ∀ (P : List Call) (st : St np), (stateAfter np st P).os 0 = st.os (P.map made).sum := by
    intro P
    induction P with
    | nil => intro st; rfl
    | cons c P ih =>
      intro st
      rw [stateAfter_cons, ih]
      show st.os (_ + made c) = _
      rw [List.map_cons, List.sum_cons, Nat.add_comm]
  simp only [exec, Np.defaultRng]
  rw [h]

/-- **C146 (alpha shapes).** Two alpha shapes, one after the other, are computed with four different arrays of the global generator: the
first and second one scaled by 10^-4 and 10^-10, and the third and fourth one. -/
theorem C146_alpha (pts : List (V3 ℝ)) (r : ℝ) (st : St np) :
    (run np del [.alpha pts r, .alpha pts r] st).1 =
      [.shape (Surf.alphaShape del ((np.rand (np.gafter st.glob []) pts.length).1.map ((1 / 10000 : ℝ) • ·))
         ((np.rand (np.gafter st.glob [.rand pts.length]) pts.length).1.map ((1 / 10000000000 : ℝ) • ·)) pts r),
       .shape (Surf.alphaShape del ((np.rand (np.gafter st.glob [.rand pts.length, .rand pts.length]) pts.length).1.map ((1 / 10000 : ℝ) • ·))
         ((np.rand (np.gafter st.glob [.rand pts.length, .rand pts.length, .rand pts.length]) pts.length).1.map
           ((1 / 10000000000 : ℝ) • ·)) pts r)] := by
  have e1 : (1 / 10 ^ 4 : ℝ) = 1 / 10000 := by norm_num
  have e2 : (1 / 10 ^ 10 : ℝ) = 1 / 10000000000 := by norm_num
  simp only [run, exec, globalNoise, Np.gafter, Np.gskip, List.foldl_cons, List.foldl_nil, e1, e2]

/-! ## Within a call -/

theorem after_replicate_succ (g : np.G) (q : Req) (k : ℕ) :
    np.after g (List.replicate (k + 1) q) = np.after (np.skip g q) (List.replicate k q) := by
  simp [Np.after, List.replicate_succ]

/-- **C146 (one after the other).** The k-th position of `gen_p_substrate` is the answer to the k-th request of the shape (1, 3), the k-th
batch of `gen_p_substrate_batched` that to the k-th request of the shape (n, 3), the k-th array of noise and the k-th array of
probabilities likewise, and so are single numbers. -/
theorem C146_numbers (g : np.G) (n k : ℕ) :
    np.pointAt g k = (np.uniform (np.after g (List.replicate k (.uniform 1))) 1).1.headD 0 ∧
    np.batchAt n g k = (np.uniform (np.after g (List.replicate k (.uniform n))) n).1 ∧
    np.noiseAt n g k = (np.normal (np.after g (List.replicate k (.normal n))) n).1 ∧
    np.probsAt n g k = (np.probs (np.after g (List.replicate k (.probs n))) n).1 ∧
    np.rawAt g k = (np.raw (np.after g (List.replicate k .raw))).1 := by
  induction k generalizing g with
  | zero => exact ⟨rfl, rfl, rfl, rfl, rfl⟩
  | succ k ih =>
    simp only [after_replicate_succ]
    exact ⟨(ih _).1, (ih _).2.1, (ih _).2.2.1, (ih _).2.2.2.1, (ih _).2.2.2.2⟩

theorem afterNoise_eq (n : ℕ) (g : np.G) (k : ℕ) : np.afterNoise n g k = np.after g (List.replicate k (.normal n)) := by
  induction k generalizing g with
  | zero => rfl
  | succ k ih => rw [after_replicate_succ]; exact ih _

/-- **C146 (add_adsorbate).** With a seed, all numbers of `add_adsorbate` come from one generator made from it, in this order: twenty arrays
of noise (with sampling only), scaled by 10^-4; the choice of the atom; one number for every attempt at a normal, whose remainder by
10000 is the seed of that attempt. -/
theorem C146_adsorbate (n : ℕ) (sampling : Bool) (s : ℕ) (z1 z2 : List (V3 ℝ)) (k i : ℕ) :
    (adsRand np n sampling s z1 z2).noise k =
      (np.normal (np.after (np.seeded s) (List.replicate k (.normal n))) n).1.map ((1 / 10000 : ℝ) • ·) ∧
    (adsRand np n sampling s z1 z2).pick = (np.raw (np.after (np.seeded s) (List.replicate (if sampling then 20 else 0) (.normal n)))).1 ∧
    (adsRand np n sampling s z1 z2).seqs k i =
      np.rawAt (np.seeded ((np.raw (np.after (np.seeded s)
        (List.replicate (if sampling then 20 else 0) (.normal n) ++ List.replicate (k + 1) .raw))).1 % 10000)) i := by
  have e1 : (1 / 10 ^ 4 : ℝ) = 1 / 10000 := by norm_num
  have ea : ∀ (g : np.G) (l l' : List Req), np.after g (l ++ l') = np.after (np.after g l) l' := fun g l l' => by
    simp [Np.after, List.foldl_append]
  refine ⟨?_, ?_, ?_⟩
  · simp only [adsRand, e1]
    rw [(C146_numbers np (np.seeded s) n k).2.2.1]
  · cases sampling
    · rfl
    · simp only [adsRand, if_true]
      rw [afterNoise_eq]
  · rw [ea, after_replicate_succ]
    cases sampling
    · simp only [adsRand]
      rw [(C146_numbers np _ n k).2.2.2.2]
      rfl
    · simp only [adsRand, if_true]
      rw [(C146_numbers np _ n k).2.2.2.2, afterNoise_eq]
      rfl

/-! ## A concrete case -/

/-- Generators that count: the k-th request gets the number k. -/
def countNp : Np where
  G := ℕ
  M := ℕ
  seeded := id
  raw g := (g, g + 1)
  uniform g n := (List.replicate n ⟨g, g, g⟩, g + 1)
  normal g n := (List.replicate n ⟨g, g, g⟩, g + 1)
  probs g _ := (fun _ => g, g + 1)
  mseed s := s
  randint m := (m, m + 1)
  rand m n := (List.replicate n ⟨m, m, m⟩, m + 1)

/-- Two alpha shapes and one with sampling, all without seeds, in a process whose global generator is at 5: the seed is the answer to the
fifth request. -/
example (pts : List (V3 ℝ)) (r : ℝ) : (stateAfter countNp ⟨(5 : ℕ), fun k => k⟩ [.alpha pts r, .alpha pts r]).glob = (9 : ℕ) := by
  simp [stateAfter, Np.gafter, asked, Np.gskip, countNp]

/-- The third generator of the operating system is for the third call that leaves it to make one. -/
example (dims : V3 ℝ) (m d : ℝ) (fuel : ℕ) (pts : List (V3 ℝ)) :
    (run countNp del [.substrate dims m d none fuel, .alpha pts 1, .substrate dims m d none fuel, .substrate dims m d (some 7) fuel,
      .substrate dims m d none fuel] ⟨(0 : ℕ), fun k => (100 * k : ℕ)⟩).1[4]? =
      some (.points (Amo.genPSubstrate dims m d (countNp.pointAt (200 : ℕ)) fuel)) := by
  have := C146_entropy countNp del [.substrate dims m d none fuel, .alpha pts 1, .substrate dims m d none fuel,
    .substrate dims m d (some 7) fuel] [] dims m d fuel ⟨(0 : ℕ), fun k => (100 * k : ℕ)⟩
  simpa [made] using this

end
end Seeds
end CZ
