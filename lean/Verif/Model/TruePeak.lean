import Verif.Model.Interp
/-!
# `src/true_peak.rs`: true peak scanning
-/

namespace Verif
variable {D S T : Type} {Sm : Type → Type}

/-- `enum UpsamplingScanner` (true_peak.rs:30-43).  The ten specialised variants
`Mono2F .. OctoSurround4F` are `specialized channels interp` (the factor is in the interpolator),
`Generic2F`/`Generic4F` hold one mono interpolator per channel. -/
inductive Scanner (S : Type) where
  | specialized (channels : Nat) (interp : Interp S)
  | generic (interps : List (Interp S))

/-- The channel counts with a specialised variant (true_peak.rs:60-69). -/
def specializedChannels : List Nat := [1, 2, 4, 6, 8]

/-- `UpsamplingScanner::new` (true_peak.rs:46-73). -/
def Scanner.new (E : Env D S) (rate channels : Nat) : Run (Option (Scanner S)) :=
  if rate < 96000 then mk 12 4
  else if rate < 192000 then mk 24 2
  else Run.done none
where
  mk (taps factor : Nat) : Run (Option (Scanner S)) :=
    if channels ∈ specializedChannels then do
      let ip ← Interp.new E taps factor channels
      Run.done (some (.specialized channels ip))
    else do
      let ip ← Interp.new E taps factor 1
      Run.done (some (.generic (List.replicate channels ip)))

/-- Body of `tp_specialized_impl!` for one frame (true_peak.rs:86-91). -/
def specStep (E : Env D S) (ops : SampleOps D S T) (st : Interp S × List S) (frame : List T) :
    Run (Interp S × List S) := do
  let (ip, outs) ← st.1.interpolate E (frame.map ops.toF32)
  Run.done (ip, outs.foldl (fun pk nf => retainMaxSamples E pk (nf.map E.f32p.abs)) st.2)

/-- Loop over a list with a faulting step. -/
def Run.foldL {σ β : Type} (f : σ → β → Run σ) : σ → List β → Run σ
  | s, [] => .done s
  | s, x :: xs => Run.bind (f s x) fun s' => Run.foldL f s' xs

/-- Body of `tp_generic_impl!` for one sample (true_peak.rs:104-111). -/
def genStep (E : Env D S) (ops : SampleOps D S T) (st : Interp S × D) (s : T) :
    Run (Interp S × D) := do
  let (ip, outs) ← st.1.interpolate E [ops.toF32 s]
  Run.done (ip, outs.foldl
    (fun pk nf => nf.foldl (fun pk x => maxBy E.f64p.lt pk (E.widen (E.f32p.abs x))) pk) st.2)

/-- `UpsamplingScanner::check_true_peak` (true_peak.rs:75-130). -/
def Scanner.checkTruePeak [Samples Sm] (E : Env D S) (ops : SampleOps D S T) (sc : Scanner S)
    (src : Sm T) (peaks : List D) : Run (Scanner S × List D) :=
  match sc with
  | .specialized channels ip => do
    Run.assert (Samples.channels src = channels ∧ peaks.length = channels)
    let tmp := peaks.map E.narrowP
    let frames ← Samples.foreachFrame src channels
    let (ip, tmp) ← Run.foldL (specStep E ops) (ip, tmp) frames
    Run.done (.specialized channels ip, tmp.map E.widen)
  | .generic ips => do
    Run.assert (Samples.channels src = ips.length ∧ Samples.channels src = peaks.length)
    let res ← Run.forL
      (fun ((ip, pk), c) => do
        let xs ← Samples.foreachSample src c
        Run.foldL (genStep E ops) (ip, pk) xs)
      (List.zip ips peaks).zipIdx
    Run.done (.generic (res.map Prod.fst), res.map Prod.snd)

/-- `UpsamplingScanner::reset` (true_peak.rs:132-147). -/
def Scanner.reset (E : Env D S) : Scanner S → Run (Scanner S)
  | .specialized channels ip => do
    let ip ← ip.reset E
    Run.done (.specialized channels ip)
  | .generic ips => do
    let ips ← Run.forL (Interp.reset E) ips
    Run.done (.generic ips)

/-- `TruePeak::seed` (true_peak.rs:174-177): scan into a discarded peak buffer. (`struct TruePeak` only
wraps the scanner; `TruePeak::new`/`reset`/`check_true_peak`, true_peak.rs:157-172, forward to it.) -/
def Scanner.seed [Samples Sm] (E : Env D S) (ops : SampleOps D S T) (sc : Scanner S)
    (src : Sm T) : Run (Scanner S) := do
  let (sc, _) ← sc.checkTruePeak E ops src (List.replicate (Samples.channels src) E.f64p.zero)
  Run.done sc

end Verif
