src=open('/tmp/bern.py').read().split('if __name__')[0].replace("d=16","d=14")
exec(src)
def dec(x):
    # exact decimal/fraction string
    return f"{x.numerator} / {x.denominator}" if x.denominator!=1 else str(x.numerator)
out=[]
W=out.append
W('''import Verif.Lemmas.TailMoments
/-! The moments to fourteen digits and the polynomial inequalities for the error of the expansion near `z = 1`.  Generated by tools/gentail.py. -/
noncomputable section
namespace TicTac
''')
W("/-- Lower and upper bounds of the moments. -/")
W("def momLo : List ℚ := ["+", ".join(dec(x) for x in lo)+"]")
W("def momHi : List ℚ := ["+", ".join(dec(x) for x in hi)+"]")
W('''
theorem mom_table : ∀ n : Fin 13, 0 ≤ momA n ∧ momLo.getD n 0 ≤ momA n * (3663561646129646 / 1000000000000000) + momB n ∧
    momA n * (3663561646129647 / 1000000000000000) + momB n ≤ momHi.getD n 0 := by decide +kernel
''')
W("/-- The expansion of the program times `4m² + q²`, in `y = q²/(4m² + q²)`. -/")
W("def tailPoly (y : ℝ) : ℝ := "+" + ".join(f"{dec(c[j])} * y ^ {j} * ((1 - y) / 4) ^ {6-j}" for j in range(7)))
W("")
W("/-- Lower and upper bounds of the integral times `4m² + q²`. -/")
W("def tailLo (y : ℝ) : ℝ := "+" + ".join(f"{dec(lo[n])} * y ^ {n}" for n in range(12)))
W("def tailHi (y : ℝ) : ℝ := "+" + ".join(f"{dec(hi[n])} * y ^ {n}" for n in range(12))+f" + 10 / 9 * ({dec(hi[12])}) * y ^ 12")
W("")
def emit(name,stmt,p,A,B):
    b=bern(p,A,B); n=len(p)-1
    h=B-A
    beta=[b[k]*comb(n,k)/h**n for k in range(n+1)]
    assert all(x>=0 for x in beta)
    terms=" + ".join(f"{dec(beta[k])} * (u ^ {k} * v ^ {n-k})" for k in range(n+1))
    W(f"theorem {name} (y : ℝ) (h0 : {dec(A)} ≤ y) (h1 : y ≤ {dec(B)}) : {stmt} := by")
    W(f"  have hu : 0 ≤ y - {dec(A)} := by linarith")
    W(f"  have hv : 0 ≤ {dec(B)} - y := by linarith")
    l,r=stmt.split(" ≤ ")
    W(f"  have e : {r} - {l} = (fun u v : ℝ => {terms}) (y - {dec(A)}) ({dec(B)} - y) := by")
    W(f"    unfold tailPoly {'tailLo' if 'tailLo' in stmt else 'tailHi'}; ring")
    W(f"  have : 0 ≤ {r} - {l} := by rw [e]; positivity")
    W(f"  linarith")
    W("")
def family(name,stmt,p,A,B):
    parts=sub(p,A,B)
    for i,(x,y) in enumerate(parts): emit(f"{name}_{i}",stmt,p,x,y)
    W(f"theorem {name} (y : ℝ) (h0 : {dec(A)} ≤ y) (h1 : y ≤ {dec(B)}) : {stmt} := by")
    for i,(x,y) in enumerate(parts[:-1]):
        W(f"  by_cases c{i} : y ≤ {dec(y)}")
        prev = "h0" if i==0 else f"(le_of_lt (not_le.1 c{i-1}))"
        W(f"  · exact {name}_{i} y {prev} c{i}")
    prev = "h0" if len(parts)==1 else f"(le_of_lt (not_le.1 c{len(parts)-2}))"
    W(f"  exact {name}_{len(parts)-1} y {prev} h1")
    W("")
k=Fr(26,10**11); k2=Fr(34,10**11)
family("tail_up","tailPoly y ≤ (1 + 26 / 100000000000) * tailLo y",up(k),Fr(0),Fr(99,100))
family("tail_dn","(1 - 26 / 100000000000) * tailHi y ≤ tailPoly y",dn(k),Fr(0),Fr(99,100))
family("tail_up_all","tailPoly y ≤ (1 + 34 / 100000000000) * tailLo y",up(k2),Fr(0),Fr(1))
family("tail_dn_all","(1 - 34 / 100000000000) * tailHi y ≤ tailPoly y",dn(k2),Fr(0),Fr(1))
k3=Fr(27,10**11)
p=[ (1-k3)*lo[n]-(a[n] if n<7 else 0) for n in range(N)]
family("tail_large","tailPoly y ≤ (1 - 27 / 100000000000) * tailLo y",p,Fr(995,1000),Fr(1))
W("end TicTac\nend")
open('/verif/lean/Verif/Lemmas/TailBounds.lean','w').write("\n".join(out)+"\n")
