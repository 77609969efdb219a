"""Writes lean/Verif/Proofs/CofactorCerts.lean certificates: prints, for each NIST curve, the packed inverse of
X^p - X modulo X^3 - 3 X + b."""
import re
src=open('/repo/nbc/util/ecdsa/ecdsa.py').read()
P=[int(x) for x in re.findall(r'^_p = (\d+)',src,re.M)]
B=[int(x,16) for x in re.findall(r'^_b = (0x[0-9a-f]+)',src,re.M)]
names=['nist192p','nist224p','nist256p','nist384p','nist521p']
BASE=2**600
def mul(p,A,Bb,u,v):
    d=[0]*5
    for i in range(3):
        for j in range(3): d[i+j]+=u[i]*v[j]
    return [(d[0]+Bb*d[3])%p,(d[1]+A*d[3]+Bb*d[4])%p,(d[2]+A*d[4])%p]
for nm,p,b in zip(names,P,B):
    A=3;Bb=(-b)%p
    acc=[1,0,0];bb=[0,1,0];e=p
    while e:
        if e&1: acc=mul(p,A,Bb,acc,bb)
        bb=mul(p,A,Bb,bb,bb); e>>=1
    q=[acc[0],(acc[1]-1)%p,acc[2]]
    # solve u*q=1 : linear system, matrix M columns q*x^i
    cols=[q,mul(p,A,Bb,q,[0,1,0]),mul(p,A,Bb,q,[0,0,1])]
    M=[[cols[j][i] for j in range(3)]+[1 if i==0 else 0] for i in range(3)]
    for i in range(3):
        pi=next(r for r in range(i,3) if M[r][i]%p); M[i],M[pi]=M[pi],M[i]
        inv=pow(M[i][i],-1,p); M[i]=[x*inv%p for x in M[i]]
        for r in range(3):
            if r!=i: M[r]=[(x-M[r][i]*y)%p for x,y in zip(M[r],M[i])]
    u=[M[i][3] for i in range(3)]
    assert mul(p,A,Bb,u,q)==[1,0,0]
    print(nm,u[0]+BASE*(u[1]+BASE*u[2]))
